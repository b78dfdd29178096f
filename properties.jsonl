{"id": "C01", "title": "Stored-file block round trip", "statement": "Building the block for a stored file (name, size) either rejects the input or yields exactly header_size bytes that, when read back at any position of an SRR, give the same name and size; it is rejected exactly when the name is not a legal SRR name, the name is empty, the header would not fit in 16 bits, or the size does not fit in 32 bits.", "quantifier": "all file names (byte strings), all sizes", "why_tests_cant": "The limits interact (16-bit header size, 16-bit name length, 32-bit size); tests sample a handful of names.", "anchors": ["rescene/rar.py:SrrStoredFileBlock.__init__", "rescene/rar.py:_SrrFileNameBlock"]}
{"id": "C02", "title": "SRR header block round trip", "statement": "The header block written for an application name parses back to that name and flag, occupies header_size bytes, and is refused (struct error) only when it cannot be encoded.", "quantifier": "all application names", "why_tests_cant": "Length arithmetic must hold for every name length, including the empty name which changes the layout.", "anchors": ["rescene/rar.py:SrrHeaderBlock"]}
{"id": "C03", "title": "RAR-file, OSO-hash and padding block round trips", "statement": "The blocks marking a RAR volume, an OSO hash and trailing padding parse back to the name, (size, hash, name) and padding bytes they were built from.", "quantifier": "all names, sizes, hashes and padding contents in range", "why_tests_cant": "Unbounded field contents.", "anchors": ["rescene/rar.py:SrrRarFileBlock", "rescene/rar.py:SrrOsoHashBlock", "rescene/rar.py:SrrRarPaddingBlock"]}
{"id": "C04", "title": "Block iteration terminates and tiles the file", "statement": "Iterating a RAR/SRR file always ends after finitely many blocks, with either a clean end or one error; on a clean end the blocks returned are consecutive: the first starts at the initial offset, each starts where the previous one (header and, if present on disk, data) ends and the last ends at or beyond the end of the file.", "quantifier": "all byte strings, both reader modes", "why_tests_cant": "A malformed header can carry any size fields; termination and tiling must hold for every byte string.", "anchors": ["rescene/rar.py:RarReader._read", "rescene/rar.py:RarReader.read_all"]}
{"id": "C05", "title": "Reading back a written SRR gives the written blocks", "statement": "For every sequence of SRR blocks written one after the other (header, stored files with their data, RAR markers and RAR header blocks) the reader returns exactly that sequence with identical block bytes, and stored file data is found at the reported position.", "quantifier": "all finite sequences of well-formed blocks", "why_tests_cant": "The sequence length and contents are unbounded; interaction between data-carrying and header-only blocks.", "anchors": ["rescene/rar.py:RarReader", "rescene/main.py:create_srr"]}
{"id": "C06", "title": "Create then reconstruct is the identity on RAR volumes", "statement": "Creating an SRR from store-mode RAR volumes and reconstructing with the original packed data yields every volume byte for byte, including trailing padding after the end block.", "quantifier": "all well-formed store-mode RAR volume sets and packed contents", "why_tests_cant": "The whole point of ReScene: must be lossless for every archive, tests have a few fixtures.", "anchors": ["rescene/main.py:create_srr", "rescene/main.py:reconstruct", "rescene/main.py:_repack", "rescene/rar.py:RarReader._read"]}
{"id": "C07", "title": "The SRR does not depend on packed data", "statement": "RAR volumes that differ only in packed file data or recovery data produce identical SRR files, apart from the OSO hashes at the end of the SRR (which are hashes of the files).", "quantifier": "all pairs of volumes with the same headers", "why_tests_cant": "Non-interference over two arbitrary inputs.", "anchors": ["rescene/main.py:create_srr", "rescene/rar.py:RarReader._read"]}
{"id": "C08", "title": "Adding stored files", "statement": "Adding files to an SRR appends them, in order, after the files already stored, before the first RAR volume block, and leaves every other byte of the SRR unchanged.", "quantifier": "all SRR files, all lists of new files", "why_tests_cant": "Quantifies over every block layout.", "anchors": ["rescene/main.py:add_stored_files", "rescene/main.py:_store"]}
{"id": "C09", "title": "Removing stored files", "statement": "Removing stored files drops exactly the stored files whose names are listed; the remaining blocks keep their bytes and order; removing what was just added restores the original.", "quantifier": "all SRR files, all lists of names", "why_tests_cant": "Quantifies over every block layout.", "anchors": ["rescene/main.py:remove_stored_files"]}
{"id": "C10", "title": "Renaming a stored file", "statement": "Renaming changes the name of the first stored file with that name and nothing else: its data, the other stored files and all RAR blocks are unchanged. If no stored file has the name an error is raised and the SRR is unchanged.", "quantifier": "all SRR files and pairs of names", "why_tests_cant": "Header sizes shift with the name length; must hold for every length.", "anchors": ["rescene/main.py:rename_stored_file", "rescene/rar.py:SrrStoredFileBlock.renameto"]}
{"id": "C11", "title": "Failed additions leave the SRR untouched", "statement": "If adding stored files fails for any reason (duplicate name, missing source file, name too long, I/O error while writing) the SRR file keeps its old contents and no temporary file is left behind.", "quantifier": "all failure points of the operation", "why_tests_cant": "Needs every failing step of the sequence, including mid-write.", "anchors": ["rescene/main.py:add_stored_files"]}
{"id": "C12", "title": "Merging SRR files loses nothing", "statement": "Merging SRRs yields one header (with the first non-empty application name), then all stored files of all inputs in order, then all RAR blocks of all inputs in order, all byte for byte.", "quantifier": "all non-empty lists of SRR files", "why_tests_cant": "Unbounded number of inputs and layouts.", "anchors": ["rescene/main.py:merge_srrs"]}
{"id": "C13", "title": "Extraction returns what was stored", "statement": "Extracting the files of an SRR writes, for every stored file that is selected, exactly the bytes that were stored, and never overwrites an existing file unless asked to.", "quantifier": "all SRR files, all predicates on names, all prior file system contents", "why_tests_cant": "Histories of file system state.", "anchors": ["rescene/main.py:extract_files", "rescene/main.py:_extract"]}
{"id": "C14", "title": "Extraction cannot leave the output directory", "statement": "For every stored name, the path built for extraction has only components that are not empty, '.', '..' or rooted, or the name is rejected.", "quantifier": "all byte strings as stored names (hostile SRR files)", "why_tests_cant": "Adversarial input.", "anchors": ["rescene/rar.py:_SrrFileNameBlock.os_file_name", "rescene/utility.py:joinpath", "rescene/main.py:_opath"]}
{"id": "C15", "title": "Content hash ignores stored files and volume order", "statement": "The content hash of an SRR depends only on the RAR volume blocks: adding, removing or renaming stored files or permuting the volumes leaves it unchanged.", "quantifier": "all SRR files, all edits", "why_tests_cant": "Relational property over all edits.", "anchors": ["rescene/main.py:content_hash"]}
{"id": "C16", "title": "Reported RAR sizes are the original sizes", "statement": "The size reported for each volume in an SRR equals the size of the RAR file the SRR was created from, and therefore the size of the reconstructed file.", "quantifier": "all volumes", "why_tests_cant": "All block sequences, including padding and recovery data.", "anchors": ["rescene/main.py:info"]}
{"id": "C17", "title": "Packed data copy writes exactly the packed size", "statement": "Copying packed data from a source into a volume writes exactly packed_size bytes: the source's next bytes, zero-filled if the source is too short, and consumes exactly that many source bytes; a CRC mismatch is reported.", "quantifier": "all source contents, positions and packed sizes", "why_tests_cant": "Chunked loop with unbounded sizes.", "anchors": ["rescene/main.py:_repack"]}
{"id": "C18", "title": "CRC over chunks equals CRC over the whole", "statement": "The CRC-32 computed chunk by chunk equals that of the complete data, for every chunking.", "quantifier": "all data, all chunk sizes", "why_tests_cant": "All splits.", "anchors": ["rescene/utility.py:calculate_crc32"]}
{"id": "C19", "title": "crc32_combine is correct", "statement": "For all byte strings a and b: combining crc32(a), crc32(b) and len(b) gives crc32(a+b).", "quantifier": "all byte strings", "why_tests_cant": "All lengths; the matrix loop runs over the bits of len2.", "anchors": ["rescene/crc32combine.py:crc32_combine"]}
{"id": "C20", "title": "Recovery record reconstruction", "statement": "The rebuilt recovery record has the documented layout: a 16-bit CRC per 512-byte protected sector followed by the XOR parity sectors; any single missing sector of a parity slice equals the XOR of the parity and the others.", "quantifier": "all volume contents and sector counts", "why_tests_cant": "Unbounded data length and number of sectors.", "anchors": ["rescene/main.py:_write_recovery_record"]}
{"id": "C21", "title": "RarStream behaves like the packed file", "statement": "Any sequence of seek, tell and read on a stream over a RAR volume set returns exactly what the same sequence returns on a plain file with the concatenated packed data.", "quantifier": "all volume splits, all operation sequences", "why_tests_cant": "Histories of operations across volume boundaries.", "anchors": ["rescene/rarstream.py:RarStream"]}
{"id": "C22", "title": "FakeFile behaves like a file of zeros", "statement": "Any sequence of seek, tell and read on a FakeFile returns what a file of file_size zero bytes returns, except that seeking to or beyond the end is refused and leaves the position unchanged.", "quantifier": "all sizes, all operation sequences", "why_tests_cant": "Histories of operations.", "anchors": ["rescene/rarstream.py:FakeFile"]}
{"id": "C23", "title": "OSO hash definition", "statement": "The OSO hash of a file of at least 64 KiB is the sum modulo 2^64 of its size and the little-endian 64-bit words of the first and last 64 KiB, as 16 hex digits; smaller files are refused.", "quantifier": "all file contents", "why_tests_cant": "All contents and sizes, including overlap below 128 KiB.", "anchors": ["rescene/osohash.py:_osorg_hash"]}
{"id": "C24", "title": "SFV parsing loses no line", "statement": "Every line of an SFV file ends up in exactly one of entries, comments and errors, in order, unless it is blank.", "quantifier": "all byte strings", "why_tests_cant": "Every possible line content.", "anchors": ["rescene/utility.py:parse_sfv_data", "rescene/utility.py:SfvEntry"]}
{"id": "C25", "title": "SFV entries hold a valid checksum", "statement": "Every entry accepted from an SFV file has a file name and an 8-digit hexadecimal checksum; a well-formed line 'name crc' is parsed to exactly that name and CRC.", "quantifier": "all byte strings, all names and checksums", "why_tests_cant": "All name and whitespace forms.", "anchors": ["rescene/utility.py:SfvEntry", "rescene/utility.py:parse_sfv_data"]}
{"id": "C26", "title": "SFV ordering", "statement": "Ordering of SFV entries is a strict order suitable for sorting (irreflexive, transitive), placing .rar before .r00 of the same set.", "quantifier": "all pairs/triples of entries", "why_tests_cant": "Order laws quantify over triples.", "anchors": ["rescene/utility.py:SfvEntry.__lt__"]}
{"id": "C27", "title": "Volume naming", "statement": "Following next_archive from a volume name enumerates the WinRAR volume names: old style .rar, .r00 ... .r99, .s00 ...; new style increments the number keeping its width; consecutive names are distinct and keep the base name.", "quantifier": "all file names", "why_tests_cant": "Unbounded names and carry chains.", "anchors": ["rescene/utility.py:next_archive"]}
{"id": "C28", "title": "RAR file recognition and first volume selection", "statement": "is_rar accepts exactly names ending in .rar, .r00-.z99 or .000-.999 (case-insensitive); first_rars returns only names from its input, and at most the first volumes.", "quantifier": "all names and lists of names", "why_tests_cant": "Regex over all strings.", "anchors": ["rescene/utility.py:is_rar", "rescene/utility.py:first_rars"]}
{"id": "C29", "title": "joinpath is injective and safe", "statement": "joinpath accepts exactly lists of plain path elements and its result splits back into the same elements.", "quantifier": "all lists of path elements", "why_tests_cant": "All strings.", "anchors": ["rescene/utility.py:joinpath"]}
{"id": "C30", "title": "EBML integers round trip", "statement": "Every integer the EBML writer accepts is read back as itself with the length derived from the first byte, for the buffer and the stream reader.", "quantifier": "all naturals (up to the encoder's limit) and all following data", "why_tests_cant": "2^49 values.", "anchors": ["resample/ebml.py:MakeEbmlUInt", "resample/ebml.py:GetEbmlUInt", "resample/ebml.py:GetUIntLength"]}
{"id": "C31", "title": "Lacing frame lengths cover the block", "statement": "For every lacing type, decoding the lace header written for given frame lengths returns those lengths, and they sum to the data length.", "quantifier": "all lists of frame sizes", "why_tests_cant": "Unbounded frame counts and sizes.", "anchors": ["resample/ebml.py:EbmlReader.GetBlockFrameLengths"]}
{"id": "C32", "title": "ID3 size round trip", "statement": "decode_id3_size inverts encode_id3_size for every size below 2^28 and encoded bytes never have the top bit set.", "quantifier": "all sizes below 2^28", "why_tests_cant": "2^28 values.", "anchors": ["resample/mp3.py:decode_id3_size", "resample/mp3.py:encode_id3_size"]}
{"id": "C33", "title": "SRS file data round trip", "statement": "The serialized sample description (flags, application, name, size, CRC) parses back to the same values.", "quantifier": "all field values in range", "why_tests_cant": "Unbounded strings.", "anchors": ["resample/main.py:FileData"]}
{"id": "C34", "title": "SRS track data round trip", "statement": "The serialized track description parses back to the same values, for small and big tracks and track numbers.", "quantifier": "all field values in range", "why_tests_cant": "Layout depends on flags and number ranges.", "anchors": ["resample/main.py:TrackData"]}
{"id": "C35", "title": "Stream samples are rebuilt exactly", "statement": "For a sample that occurs in the main file, create SRS, load SRS, find, extract and rebuild give back the sample bytes and its CRC.", "quantifier": "all sample and main file contents", "why_tests_cant": "All contents.", "anchors": ["resample/main.py:stream_create_srs", "resample/main.py:stream_load_srs", "resample/main.py:stream_find_sample_streams", "resample/main.py:stream_extract_sample_streams", "resample/main.py:stream_rebuild_sample"]}
{"id": "C36", "title": "Signature search finds the first occurrence", "statement": "Searching a main file in 64 KiB steps finds the first occurrence of the signature in the whole file, or reports none if and only if it does not occur.", "quantifier": "all files and signatures", "why_tests_cant": "Matches may straddle any read boundary.", "anchors": ["resample/main.py:stream_find_sample_streams", "resample/main.py:mp3_match_signature"]}
{"id": "C37", "title": "AVI samples: strip and rebuild", "statement": "Stripping stream data from an AVI and putting the track data back gives the original file, byte for byte, padding included; the SRS holds exactly the tracks of the sample; every accepted sample is read completely; reading always ends.", "quantifier": "all chunk sequences, tracks and track files", "why_tests_cant": "Unbounded structures, padding bytes.", "anchors": ["resample/main.py:avi_create_srs", "resample/main.py:avi_rebuild_sample", "resample/riff.py:RiffReader"]}
{"id": "C38", "title": "FLAC samples: strip and rebuild", "statement": "An SRS made of a FLAC file, together with any file that has the same audio frames (whatever its own tags and metadata), gives back the FLAC file byte for byte; a result that is reported as good has the recorded CRC; reading such files always ends.", "quantifier": "all metadata block sequences, audio frames, tags, fingerprints and main files", "why_tests_cant": "Unbounded structures.", "anchors": ["resample/main.py:flac_create_srs", "resample/main.py:flac_rebuild_sample", "resample/flac.py:FlacReader"]}
{"id": "C39", "title": "MP3 samples: strip and rebuild", "statement": "An SRS made of an MP3 file, together with any file that has the same sound data between its tags, gives back the MP3 file byte for byte, tags included; a result that is reported as good has the recorded CRC.", "quantifier": "all leading and trailing tags, sound data and main files", "why_tests_cant": "Unbounded structures.", "anchors": ["resample/main.py:mp3_create_srs", "resample/main.py:mp3_rebuild_sample", "resample/mp3.py:Mp3Reader"]}
{"id": "C40", "title": "MP4 samples: strip and rebuild", "statement": "Same for MP4 atoms whose media data is the ordered concatenation of the track chunks.", "quantifier": "all atom sequences and chunk tables", "why_tests_cant": "Unbounded structures.", "anchors": ["resample/main.py:mp4_create_srs", "resample/main.py:mp4_rebuild_sample", "resample/main.py:order_chunks", "resample/main.py:stsc"]}
{"id": "C41", "title": "MKV samples: strip and rebuild", "statement": "An SRS of an MKV sample holds the name, size and CRC of the sample and, for exactly its tracks, the length and the first bytes of the data; rebuilding from it with the data of the tracks and the attached files gives the sample, byte for byte.", "quantifier": "all element trees", "why_tests_cant": "Unbounded nesting.", "anchors": ["resample/main.py:mkv_create_srs", "resample/main.py:mkv_rebuild_sample", "resample/ebml.py:EbmlReader"]}
{"id": "C42", "title": "Stream SRS reader always terminates", "statement": "Reading the blocks of a stream SRS file ends for every input.", "quantifier": "all byte strings", "why_tests_cant": "Malformed size fields.", "anchors": ["resample/stream.py:StreamReader.read"]}
{"id": "C43", "title": "yEnc decoding", "statement": "Decoding yEnc data inverts encoding.", "quantifier": "all byte strings and escape choices", "why_tests_cant": "All contents.", "anchors": ["usenet/yenc.py:decode"]}
{"id": "C44", "title": "escape_glob", "statement": "The escaped pattern matches exactly the literal path.", "quantifier": "all paths", "why_tests_cant": "All strings.", "anchors": ["rescene/main.py:escape_glob"]}
{"id": "C45", "title": "Thread count enumeration", "statement": "Increasing the thread count visits every supported count exactly once and then stops.", "quantifier": "all starting states and machine limits", "why_tests_cant": "Histories.", "anchors": ["rescene/main.py:RarArguments.increase_thread_count"]}
{"id": "C46", "title": "DOS timestamps", "statement": "Every 32-bit DOS time decodes to in-range fields and re-encodes to itself.", "quantifier": "all 32-bit values", "why_tests_cant": "2^32 values.", "anchors": ["rescene/rar.py:_parse_dos_time"]}
{"id": "C47", "title": "Dictionary size parameter", "statement": "The compression parameter and dictionary size reported for a file header are determined by, and determine, the dictionary bits of its flags.", "quantifier": "all 16-bit flags", "why_tests_cant": "Finite but never enumerated by tests.", "anchors": ["rescene/rar.py:RarPackedFileBlock.get_dictionary_size_parameter", "rescene/rar.py:RarPackedFileBlock.get_dict_size"]}
{"id": "C48", "title": "Unicode RAR file names", "statement": "Decoding of compressed unicode names is total on well-formed data and agrees with the RAR format definition.", "quantifier": "all encodings", "why_tests_cant": "Unbounded opcode streams.", "anchors": ["rescene/rar.py:UnicodeFilename"]}
{"id": "C49", "title": "Crash safety of SRR edits", "statement": "At every crash point of an SRR edit, either the old SRR is intact under its name, or the complete new content exists on disk.", "quantifier": "all crash points", "why_tests_cant": "Crash points cannot be exercised by unit tests.", "anchors": ["rescene/main.py:add_stored_files", "rescene/main.py:remove_stored_files", "rescene/rar.py:SrrStoredFileBlock.renameto"]}
{"id": "C50", "title": "Usenet reader retry bound", "statement": "A failing source is retried a bounded number of times; a source that eventually works within that bound gives the same SRR as one that never fails.", "quantifier": "all failure histories", "why_tests_cant": "Histories of failures.", "anchors": ["rescene/main.py:_rarreader_usenet"]}
{"id": "C51", "title": "Full packed size and volume sizes", "statement": "The full packed size of a set is the sum over the volumes of the part sizes; the calculated volume size is the size shared by all but the last volume.", "quantifier": "all sets", "why_tests_cant": "Unbounded sets.", "anchors": ["rescene/main.py:get_full_packed_size", "rescene/main.py:calculate_size_volume"]}
{"id": "C52", "title": "A rebuilt sample is only left behind when it is right", "statement": "After rebuilding a sample from its SRS, a file is left at the result path only if its size and CRC equal those in the SRS, unless the user asked to keep bad files.", "quantifier": "all outcomes of each stage", "why_tests_cant": "Histories of failures.", "anchors": ["resample/srs.py:main"]}
{"id": "C53", "title": "Rebuilt samples stay in the output folder", "statement": "The path a rebuilt sample is written to lies in the output folder, whatever name the SRS carries.", "quantifier": "all names", "why_tests_cant": "Adversarial names.", "anchors": ["resample/srs.py:main", "resample/main.py:FileData"]}
{"id": "C54", "title": "Removing SFV duplicates and comparing SFV files", "statement": "Filtering duplicates keeps one of each group of entries that say the same, loses and invents none; two SFV files count as the same exactly when they list the same entries.", "quantifier": "all SFV entry lists", "why_tests_cant": "All orders and duplicates.", "anchors": ["rescene/utility.py:filter_sfv_duplicates", "rescene/utility.py:same_sfv"]}
{"id": "C55", "title": "Every RAR executable gets its chance", "statement": "When compressed archives are rebuilt, the executables offered for a file are exactly the ones of the repository, each once: the one that fitted earlier first, then those released not before the newest file in the archive, oldest first, then the older ones, newest first.", "quantifier": "every repository of executables, every date and every choice of an earlier fitting executable", "why_tests_cant": "a test sees one repository and one date", "anchors": ["rescene/main.py:RarRepository.get_rar_executables"]}
{"id": "C56", "title": "Reconstruction only touches what it may", "statement": "Whatever the SRR contains, reconstruction never changes an existing file for which the application does not allow overwriting, and all files it makes or changes lie below the output folder. When overwriting a volume is refused it stops there and reports that.", "quantifier": "all SRR files (also hostile ones), all options, all prior file system contents and answers", "why_tests_cant": "Adversarial input and histories of file system state.", "anchors": ["rescene/main.py:reconstruct", "rescene/main.py:can_overwrite", "rescene/main.py:_opath"]}
{"id": "C57", "title": "Compressed archives are refused unless allowed", "statement": "Without the option for compressed archives an SRR is only created when every file in every volume is stored; otherwise ValueError is raised. With the option the SRR of stored archives is the same.", "quantifier": "all volumes, all options", "why_tests_cant": "A compressed file can be in any volume.", "anchors": ["rescene/main.py:create_srr"]}
{"id": "C58", "title": "The report on an SRR is what is in it", "statement": "The information reported for an SRR has the application name of its header; every stored file with its size; every archived file that has a part in some volume, with the size in its headers (the sum of its parts when the headers do not know it), the checksum of its last part and whether it is compressed; every OSO hash; for each volume the checksum of its entry in the stored SFV files, and all other SFV entries.", "quantifier": "all SRR files the reader accepts", "why_tests_cant": "Any number of volumes, parts, stored files and SFV lines, in any order.", "anchors": ["rescene/main.py:info"]}
{"id": "C59", "title": "Reading music files always ends", "statement": "Reading a FLAC or MP3 file, or an SRS of one, ends for every input: with its parts or with an exception.", "quantifier": "all byte strings", "why_tests_cant": "Malformed size fields, nested or overlapping tags.", "anchors": ["resample/mp3.py:Mp3Reader", "resample/flac.py:FlacReader"]}
{"id": "C60", "title": "A failed rebuild loses no files", "statement": "When rebuilding a sample fails or the program is killed while it does, no file that existed is lost: a file that was at the result path is there unchanged, or the rebuilt file with the right CRC has replaced it; for music files that includes the file the track is rebuilt from.", "quantifier": "all failures of reading and writing, all moments at which the program is killed", "why_tests_cant": "Crash points and histories.", "anchors": ["resample/srs.py:main", "rescene/utility.py:replace_result"]}
{"id": "C61", "title": "A successful rebuild leaves no temporary files", "statement": "After a sample is rebuilt successfully, the only file that was made or changed is the one at the result path.", "quantifier": "all samples, also those that need several attempts", "why_tests_cant": "Histories of attempts.", "anchors": ["resample/srs.py:main", "rescene/utility.py:create_temp_file_name"]}
{"id": "C62", "title": "A sample cut from an AVI movie is rebuilt from that movie", "statement": "When the tracks of a sample are, from some place on, the tracks of the movie, rebuilding from the SRS of the sample and the movie gives the sample, byte for byte, whatever way the movie is cut into chunks; a result is reported as right only when its CRC is that of the sample.", "quantifier": "all samples and movies, any number of tracks and chunks, any chunk sizes", "why_tests_cant": "The start of a track can lie across any number of chunks, and data that looks like it can come before.", "anchors": ["resample/main.py:avi_find_sample_streams", "resample/main.py:avi_extract_sample_streams", "resample/main.py:avi_rebuild_sample", "resample/srs.py:main", "resample/riff.py:RiffReader"]}
{"id": "C63", "title": "The loops over the atoms of an MP4 file end", "statement": "Reading an MP4 sample, an SRS file of one or a main movie ends after at most as many atoms as the file has bytes, for every input.", "quantifier": "all byte strings", "why_tests_cant": "Malformed and hostile size fields; the size field can be 32 or 64 bits wide, and zero has a meaning of its own.", "anchors": ["resample/mov.py:MovReader.read", "resample/mov.py:MovReader.skip_contents", "resample/main.py:mp4_find_sample_streams", "resample/main.py:mp4_rebuild_sample"]}
{"id": "C64", "title": "A sample cut from an MP4 movie is rebuilt from that movie", "statement": "When the data of each track of a sample is, from some place on, the data of the track of the movie with the same number, rebuilding from the SRS of the sample and the movie gives the sample, byte for byte, whatever way the movie and the sample are cut into chunks, and whether or not the movie was at hand when the SRS was made; a result is reported as right only when its CRC is that of the sample.", "quantifier": "all samples and movies, any number of tracks, chunks and samples", "why_tests_cant": "The start of a track can lie across any number of chunks, chunks of tracks are interleaved in any way, and the tables can be stored in several forms.", "anchors": ["resample/main.py:mp4_find_sample_streams", "resample/main.py:mp4_find_sample_stream", "resample/main.py:TrackStream", "resample/main.py:mp4_extract_sample_streams", "resample/srs.py:main"]}
{"id": "C65", "title": "The loops over the elements of an MKV file end", "statement": "Reading an MKV sample, writing and reading an SRS file of one, searching and extracting from a main movie and rebuilding all end after at most as many elements as the file has bytes, for every input.", "quantifier": "all byte strings", "why_tests_cant": "Malformed and hostile size fields; sizes of blocks can be smaller than their headers, so that the reader moves backwards.", "anchors": ["resample/ebml.py:EbmlReader.read", "resample/ebml.py:EbmlReader.skip_contents", "resample/main.py:mkv_profile_sample", "resample/main.py:mkv_create_srs", "resample/main.py:mkv_load_srs", "resample/main.py:mkv_find_sample_streams", "resample/main.py:mkv_extract_sample_streams", "resample/main.py:mkv_rebuild_sample"]}
{"id": "C66", "title": "A sample cut from an MKV movie is rebuilt from that movie", "statement": "When the frames of each track of a sample are, with the header bytes that either file strips, consecutive frames of the track of the movie with the same number, and the attached files of the sample are attached to the movie, rebuilding from the SRS of the sample and the movie gives the sample, byte for byte, whatever way the movie is cut into clusters, blocks and laces; a result is reported as right only when its CRC is that of the sample.", "quantifier": "all samples and movies, any number of tracks, blocks, frames and attachments", "why_tests_cant": "The first bytes of a track can lie across any number of frames, blocks of tracks are interleaved in any way, and headers can be stripped in one of the files only.", "anchors": ["resample/main.py:mkv_find_sample_streams", "resample/main.py:_mkv_block_find", "resample/main.py:mkv_extract_sample_streams", "resample/main.py:_mkv_block_extract", "resample/srs.py:main"]}
{"id": "C67", "title": "WMV samples are rebuilt from their SRS and the data of their streams", "statement": "An SRS file of a WMV sample holds all of it but the data of the payloads and the padding of zeros: reading the SRS gives the name, size and CRC of the sample and length and first bytes of the data of each stream, and rebuilding from the SRS and the data of the streams gives the sample back byte for byte, with the CRC of what was written. Reading any file ends.", "quantifier": "all WMV samples, any number of objects, packets, payloads (single, multiple and compressed) and streams; for the loops all byte strings", "why_tests_cant": "Packets have fields of many lengths, several payloads, compressed payloads and padding, all combinations of which must be undone exactly; sizes in damaged files are arbitrary.", "anchors": ["resample/asf.py:AsfReader.read", "resample/asf.py:asf_data_get_packet", "resample/asf.py:asf_data_read_payloads", "resample/main.py:profile_wmv", "resample/main.py:wmv_create_srs", "resample/main.py:wmv_load_srs", "resample/main.py:wmv_rebuild_sample"]}
{"id": "C68", "title": "WMV samples cut out of a movie are found and rebuilt", "statement": "A sample whose streams' data are each a run of the data of that stream in the movie, starting in the middle of a payload perhaps, is rebuilt byte for byte from its SRS and the movie, also when the SRS was created by checking against that movie (which stores where the data starts). Rebuilding a sample from itself gives the sample.", "quantifier": "all WMV samples and movies, any number of packets, payloads and streams, any cut", "why_tests_cant": "Payloads of several streams are interleaved, signatures span several payloads, and false starts come before the right place.", "anchors": ["resample/main.py:wmv_find_sample_streams", "resample/main.py:wmv_extract_sample_streams", "resample/srs.py:main"]}
{"id": "C69", "title": "The volumes that an SFV file lists are the volumes in the SRR", "statement": "When an SRR is created from an SFV file, the volumes in it are exactly the RAR volumes that the SFV lists, once each, in the order of the set, whatever the order of the lines; a volume whose name on disk differs in upper and lower case only is found, and a volume that is not there is reported as missing.", "quantifier": "all SFV files and directories, any number of volumes, any order of lines", "why_tests_cant": "The order comes from a comparison function that must be consistent on every list of names; the number of volumes is not bounded.", "anchors": ["rescene/main.py:_handle_sfv", "rescene/main.py:create_srr", "rescene/utility.py:capitalized_fn", "rescene/utility.py:SfvEntry.__lt__"]}
{"id": "C70", "title": "The volumes that follow the given first volume are the volumes in the SRR", "statement": "When an SRR is created from the first volume of a set, the volumes in it are exactly the first volume and those that follow it without a gap in its naming, in order; looking for them ends; a later volume is refused.", "quantifier": "all directories, all numbers of volumes, the three namings", "why_tests_cant": "The number of volumes is not bounded and the naming wraps from r99 to s00 and so on.", "anchors": ["rescene/main.py:_handle_rar", "rescene/main.py:create_srr", "rescene/rar.py:RarReader", "rescene/utility.py:next_archive"]}
{"id": "C71", "title": "Names in an SRR lead back to the files", "statement": "When paths are saved, the name under which a volume or stored file is recorded leads, from the input folder, to the file it was made from, and files below that folder get a name below it, that can be extracted; all stored files that were asked for are stored, once each, and so is the SFV.", "quantifier": "all paths and folders, all lists of files", "why_tests_cant": "Paths of any depth with any combination of . and .. and doubled slashes.", "anchors": ["rescene/main.py:_store", "rescene/main.py:create_srr", "os.path.relpath"]}
{"id": "C72", "title": "Creating an SRR writes no file but the SRR", "statement": "Whatever fails and whenever the program is killed, creating an SRR changes no file other than the one at the SRR path. An SRR that exists is not touched without leave to overwrite. When it succeeds the complete SRR is there; when a volume is missing or compressed no partial SRR remains.", "quantifier": "all inputs, all failures of reading and writing, all moments at which the program is killed", "why_tests_cant": "Crash points and histories.", "anchors": ["rescene/main.py:create_srr", "rescene/main.py:can_overwrite"]}
{"id": "C73", "title": "Verifying extracted files finds every missing or corrupt one", "statement": "The srr command says that all extracted files are OK exactly when, for every file in the archives that has a checksum, the extracted file (or when asked a renamed one of the same extension and size) has that checksum; otherwise it says whether a file is corrupt or missing.", "quantifier": "all SRR files, folders and file contents", "why_tests_cant": "Any number of files in any state; the last status must not hide an earlier one.", "anchors": ["rescene/srr.py:verify_extracted_files", "rescene/main.py:info"]}
{"id": "C74", "title": "The srr command replaces an SRR only by a complete one", "statement": "Whatever fails and whenever the program is killed, the file at the place of the SRR is the one that was there or the complete new one, and no other file than the temporary one is touched; success is only reported when the complete SRR is there, and leaves no temporary file.", "quantifier": "all inputs, all failures of reading and writing, all moments at which the program is killed", "why_tests_cant": "Crash points and histories.", "anchors": ["rescene/srr.py:create_srr", "rescene/srr.py:main (can_overwrite)", "rescene/main.py:create_srr", "rescene/utility.py:replace_result", "rescene/utility.py:create_temp_file_name"]}
{"id": "C75", "title": "A sample that is not found in the movie is not accepted", "statement": "An SRS is created with the option to check against a movie, and a sample is rebuilt after a search, only when every track was located in that movie: when one is not, the command fails before anything is written. For a stream sample, success means that the first bytes of the sample occur in the movie.", "quantifier": "all samples and movies, the seven formats", "why_tests_cant": "The movie can be any file; no test covers all of them.", "anchors": ["resample/srs.py:verify_main", "resample/srs.py:main", "resample/main.py:find_sample_streams functions"]}
{"id": "C76", "title": "An SRS is recognised as the format of its sample", "statement": "The command that rebuilds finds out from the first bytes and the name of the SRS which format it has. For every SRS that the create command made, this is the format that the sample was recognised as, so the rebuild uses the reader that belongs to it and gives exactly what that reader gives.", "quantifier": "all samples of the seven formats, their SRS files, movies of the same format, all names", "why_tests_cant": "The recognition looks at bytes of the sample that are copied to the SRS; no set of tests covers all of them.", "anchors": ["resample/main.py:file_type_info", "resample/srs.py:main", "resample/main.py:sample_class_factory"]}
{"id": "C77", "title": "Attempts after a wrong CRC", "statement": "A track of an MKV sample whose signature is short can have several places in the movie where it might start. When the first attempt gives a wrong CRC, the other places near the other tracks are tried: all those between the settled tracks, and the closest before and after, in every combination, until the CRC is right. Only frames that look like the signature are tried. What is reported as right has the CRC of the SRS; what is not right is never reported as right. A sample that is right at the first attempt is not affected.", "quantifier": "all SRS files, movies, numbers of tracks and of places", "why_tests_cant": "The number of combinations is unbounded, and what an attempt leaves behind could disturb the ones after it.", "anchors": ["resample/srs.py:find_best_educated_guesses", "resample/srs.py:main", "resample/main.py:_extra_offsets_x265_bug", "resample/main.py:mkv_load_srs", "resample/main.py:mkv_extract_sample_streams"]}
{"id": "C78", "title": "The search finds the releases in a tree of folders", "statement": "pyrescene on a folder handles each release in it once: every folder that counts as a release and is not inside of another one, and nothing else. A folder is a release when it has an NFO or SFV file (other than those known not to come with releases), or a folder for a disk with an SFV file, or consists of a few folders with SFV files; not when it has the name of a folder in a release or a space in its name, nor when it is a pack of releases with an NFO file.", "quantifier": "all trees of folders, of any depth and with any names", "why_tests_cant": "Trees are unbounded and names can be prefixes of each other.", "anchors": ["bin/pyrescene.py:get_release_directories", "bin/pyrescene.py:is_release", "rescene/utility.py:RELEASE_FOLDERS"]}
{"id": "C79", "title": "The SFV files of a release are told from those of its parts", "statement": "An SRR made for a release has the volumes of the SFV files of the release itself: those in folders for subtitles, proofs, covers and codecs, in folders for fixes of a release that is not one, and those named like subtitles are left to be stored as files. When nothing would remain, all SFV files with more than one line or with music count. No SFV file is both and none is lost. Samples are checked against the first volume of each set.", "quantifier": "all releases, names and numbers of SFV files", "why_tests_cant": "The choice depends on the names of folders, files and release in combination.", "anchors": ["bin/pyrescene.py:remove_unwanted_sfvs", "bin/pyrescene.py:get_unwanted_sfvs", "bin/pyrescene.py:get_start_rar_files"]}
{"id": "C80", "title": "All files to store are stored, in their order", "statement": "The SRR made for a release stores every file that was found for it and every SFV file, once each, except those the user wants skipped and SRS files of music that fail. SRS files of different samples have different names. For music the NFO files come first and the rest is sorted; otherwise the SFV files come last, those of the release at the end, with the SRR file of subtitles or the RAR file of a proof above its SFV file.", "quantifier": "all lists of files, names and options", "why_tests_cant": "Moving, sorting and skipping act on lists of any length in any order; names can collide.", "anchors": ["bin/pyrescene.py:generate_srr", "bin/pyrescene.py:key_sort_music_files"]}
{"id": "C81", "title": "The two commands of srs undo each other", "statement": "When the command `srs sample` makes an SRS file of a sample, with or without `-c movie`, then the command `srs sample.srs movie` rebuilds the sample from it and the movie, byte for byte, and reports it as right, for samples of every kind that is supported (stream, AVI, MP4, WMV, MKV, FLAC, MP3) that were cut out of the movie.", "quantifier": "all samples and movies of any size with any number of tracks, packets, frames and tags, all names of the files, with and without -c, -i and -b", "why_tests_cant": "The commands choose between seven formats by the first bytes and the names of the sample, the SRS file and the movie; tests run some sample files per format.", "anchors": ["resample/srs.py:main", "resample/main.py:file_type_info", "resample/main.py:sample_class_factory"]}
{"id": "C82", "title": "pyrescene replaces the SRR of a release only by a complete one", "statement": "When `pyrescene` makes the SRR of a release, the SRR in the end consists of the volumes that the SFV files list and exactly the files that were prepared in the working folder, in their order; the volumes can be rebuilt from it, byte for byte. It is made under another name: whatever fails, and whenever the process is killed, the SRR is the earlier one, or the complete new one, or there is none for the moment between the two; after an error the earlier one is still there. `True` is only given when the complete SRR is there or an SRR was to be kept. No other file is touched, and no temporary file is left after an error.", "quantifier": "all releases with any number of volumes and of files to store, all earlier SRRs, all points of failure and of crash, and all programs that fill the working folder", "why_tests_cant": "The SRR passes through three tools that each write and replace a file (create, remove, add) before it is renamed; tests make a release once, without failures.", "anchors": ["bin/pyrescene.py:generate_srr", "rescene/main.py:create_srr", "rescene/main.py:remove_stored_files", "rescene/main.py:add_stored_files"]}
{"id": "C83", "title": "Damage to a file is noticed by its checksum", "statement": "A file in which one bit has changed, or two bits that are less than 2^32 - 1 bits apart (any two in a file below 512 MiB), or anything within 32 bits in a row, has another CRC-32: `calculate_crc32` gives another value, `srr -q` does not accept it in the place of an extracted file, and `srs` never reports a rebuilt sample as right that is such a damaged copy of the original. The limit for two bits is sharp.", "quantifier": "all files and all damage of these kinds", "why_tests_cant": "A test can damage a file in some places; that no place and no file is missed rests on the order of x modulo the polynomial of the checksum.", "anchors": ["rescene/utility.py:calculate_crc32", "rescene/srr.py:verify_extracted_files", "resample/srs.py:main", "resample/main.py"]}
{"id": "C84", "title": "bitflip.py finds the change that repairs a file", "statement": "For a range in the file and any window size the search never stops with an error, and finds the first byte of the range that can be changed in the asked way (one bit, two adjacent bits, any value) so that the file has the checksum, if there is one; nothing else is changed. When one bit of a file below 512 MiB has changed, or two adjacent bits of one of its bytes with `--bitswitch`, or one byte of a file of at most 145212 bytes with `--byte`, and it is in the range, the result is the original file. For every larger file there is damage of one byte for which `--byte` writes another file than the original.", "quantifier": "all files, checksums, ranges, window sizes and changes", "why_tests_cant": "A test repairs one file; that the first match is the original must hold for all places and files, and depends on the powers of x modulo the polynomial of the checksum.", "anchors": ["scripts/bitflip.py:main", "scripts/bitflip.py:precalculate", "rescene/crc32combine.py:crc32_combine"]}
{"id": "C85", "title": "A sample without SRS does not stop pyrescene", "statement": "The command srs has exit status 0, and a call from another program returns, exactly when the SRS was made. When pyrescene makes the SRR of a release, every sample of which an SRS can be made (checked against a main file, or without) gets its SRS, every other one a text with the reason unless it is empty, whatever the other samples are; all releases are handled, in their order, and the exit status is 0 exactly when none is without SRR.", "quantifier": "all samples of all kinds, main files to check against, reports and texts of errors, lists of samples and of releases", "why_tests_cant": "The report of every way of failing has to reach the caller in the form it waits for; a test uses a few damaged samples, and the reports contain file names and sizes.", "anchors": ["resample/srs.py:main", "bin/pyrescene.py:generate_srr", "bin/pyrescene.py:main"]}
{"id": "C86", "title": "retag.py restores every track it can find", "statement": "retag.py uses every SRS of music in the SRR, in order, and counts each as fixed or failed; fixed only when srs reported success for a file of the name of the track. The file is found also when its name or folders are in other upper and lower case, and is never one of another name. The SRS files are removed afterwards, the SRR is not changed. The exit status is 0 when all tracks are fixed.", "quantifier": "all SRR files, stored names, trees of folders and results of srs", "why_tests_cant": "A test runs one release; that no stored file stops the others and no name is mistaken for another must hold for all SRR files and folder trees.", "anchors": ["bin/retag.py:fix_tracks", "bin/retag.py:fix_tagging", "bin/retag.py:join_fix_case", "bin/retag.py:main"]}
{"id": "C87", "title": "The RAR executable that made a compressed file is found when there is one", "statement": "To rebuild a compressed file, reconstruct runs the RAR executables of the repository on the beginning of the file: the one of an earlier file first, each with every number of threads that the settings allow, also with the file before or behind it added. An executable is chosen only when the archive it made begins with packed data of the size and CRC that the SRR has for the first part, and nothing is found only when there is no such executable. The packed data that is used has the size that the SRR has for all parts.", "quantifier": "all repositories, thread settings, source files, file blocks and behaviours of the executables", "why_tests_cant": "The executables and their output are outside the code; the order of attempts, what is changed between them and what is accepted must be right for every combination.", "anchors": ["rescene/main.py:CompressedRarFile.search_matching_rar_executable", "rescene/main.py:CompressedRarFile.__init__", "rescene/main.py:RarArguments.arglist", "rescene/main.py:RarRepository.get_most_recent_version"]}
{"id": "C88", "title": "A compressed file is rebuilt with the blocks of its own RAR set", "statement": "The parts of a compressed file, its full packed size and the file behind it are taken from the volumes of the same set (base.rar, base.r00, ... or base.part1.rar, ...) and no other. The files of a solid set are compressed together, in order, and each gets the packed data that was made for it, with the size that the SRR has.", "quantifier": "all SRR files with any number of sets and volumes, all solid and split files, all earlier files of the same process", "why_tests_cant": "A test has one release; mixing of sets, split files and files of the same name depends on the whole SRR and on what was rebuilt before in the same process.", "anchors": ["rescene/main.py:get_archived_file_blocks", "rescene/main.py:get_set", "rescene/main.py:compressed_rar_file_factory", "rescene/main.py:followed_by_solid_block", "rescene/main.py:next_block", "rescene/main.py:CompressedRarFile.set_new", "rescene/main.py:get_rar_data_object"]}
{"id": "C89", "title": "The samples and proofs of a release are found", "statement": "pyrescene takes as samples exactly the videos of a release with the word sample in their path, beside an SFV file of their name, or listed by an SFV file, each once; and as proofs and covers exactly the images with proof, sample, /cover, /screenshots or /compare in their path, and of the others that are not unwanted (a space in the name, folder art of players) all with the option for it, and otherwise those numbered 00, 01 or 001 and those above 100000 bytes that are named like an SFV, NFO, M3U or RAR file of the release and are no cover of a site; and the RAR files with proof in their path that hold an image. Each file is given once, and the search only fails when an archive cannot be read.", "quantifier": "all trees of folders and files, names in any case, contents of SFV and RAR files, both options", "why_tests_cant": "Trees, names and sizes are unbounded, and the rules act together.", "anchors": ["bin/pyrescene.py:get_files", "bin/pyrescene.py:get_sample_files", "bin/pyrescene.py:get_proof_files", "bin/pyrescene.py:similar_to_good_name", "bin/pyrescene.py:filters"]}
{"id": "C90", "title": "The size of an image is read right", "statement": "For every JPEG, PNG and GIF file the size that decides whether an image is a cover from a site (630 by 1200) is the width and height in its header; with any file, also a damaged one, reading the size ends without an exception.", "quantifier": "all files, all chains of JPEG segments with any fill bytes", "why_tests_cant": "Damaged files can have segment sizes that point back; the number of segments is not bounded.", "anchors": ["bin/pyrescene.py:get_image_size", "bin/pyrescene.py:test_jpeg", "bin/pyrescene.py:fixed_resolution_cover"]}
{"id": "C91", "title": "Every archive with subtitles gets an SRR", "statement": "With --vobsub-srr, every RAR set that an SFV file with subtitles lists and that can be extracted gets an SRR, and so does every set in it, at every depth; the SRR of a set stores exactly the SRRs of the sets in it. Sets are extracted to new folders. The first SRR of an SFV file stores a list of the languages of all its IDX files. SFV files of proofs that are stored and of dirfixes are skipped, the others are handled in order, and one that fails does not keep the others away.", "quantifier": "all nestings of archives, numbers of sets, IDX files, and names that exist in the working folder", "why_tests_cant": "Archives nest to any depth, and names can collide with those that exist.", "anchors": ["bin/pyrescene.py:create_srr_for_subs", "bin/pyrescene.py:generate_srr"]}
{"id": "C92", "title": "The command srr does what was asked with an SRR file, and its exit status tells how it went", "statement": "`srr x.srr` gives back the volumes that the SRR was made from with `srr`, with exit status 0, and the status is 0 only when all volumes are rebuilt right. -x and --extract-regex write the stored files, with status 0 exactly when all that were selected are written, into the folder of -o, or with -d into the one in it named after the SRR. -l, -e and -q change no file, and -q has the status of the verification. Wrong input (files that are missing or of another type, no files, hints or expressions that are not well-formed, a missing temporary folder, -x and --extract-regex together) gives status 1 and nothing is changed. Every SRR file that is given is used.", "quantifier": "all SRR files, sets of volumes, combinations of options, and files that exist", "why_tests_cant": "Options, files and answers of the user combine without bound.", "anchors": ["rescene/srr.py:main", "rescene/srr.py:manage_srr"]}
{"id": "C93", "title": "srr_sort.py lists and moves the SRR files that have what was asked for", "statement": "An SRR file that can be read is listed exactly when one of the options that are given holds of it: a compressed file, no archived files, a volume with a repack name or with capitals, a stored file twice, no stored files, no SFV, no NFO, a TXT file, two NFO files, an image, an image that is no proof, a name without a group, an archive with more than one file. With -o the SRR files that are listed are moved to the folder with their contents, the others stay, and no SRR file is lost.", "quantifier": "all SRR files, options, and files in the folder", "why_tests_cant": "SRR files hold any number of blocks, and names in different folders can be the same.", "anchors": ["bin/srr_sort.py:check", "bin/srr_sort.py:check_image", "bin/srr_sort.py:check_nfos", "bin/srr_sort.py:check_duplicates", "bin/srr_sort.py:main"]}
{"id": "C94", "title": "The repository of RAR executables: versions are recognised, stored and found by date", "statement": "preprardir.py recognises the version in the names of the archives of RAR for Windows, Linux, OS X and BSD, extracts the executable of each version from 2.0 on (betas only when asked for), and stores it under its date and version without losing another one. Loading the folder finds exactly the stored executables, with these dates and versions, sorted by date; for an archive of a date the first one that is not older is tried first, then the older ones from new to old, then the others from old to new, each once; the most recent version is of the latest date.", "quantifier": "all names, versions, dates, folders of archives and of executables", "why_tests_cant": "The names of versions and the contents of a folder are unbounded; a version that is lost or tried too late is only noticed when a set of compressed files cannot be rebuilt.", "anchors": ["bin/preprardir.py:versiontag", "bin/preprardir.py:extract_rarbin", "bin/preprardir.py:get_rar_date_name", "rescene/main.py:RarRepository", "rescene/main.py:RarExecutable"]}
{"id": "C95", "title": "The files beside the archives of a release are copied for the SRR as they are", "statement": "pyrescene copies every NFO file, playlist, log, cue sheet and proof in the folders of a release to the working folder, except files that sites add (imdb.nfo, tvmaze.nfo, a no.nfo of eight bytes, logs of transfers, hidden logs): each once, with its contents, and with its path relative to the release as the name in the SRR. SRS files of the release are added where none was made from a sample; the archive of a release is added only when the release is a fix of an SFV, a proof, a folder and the like, with one archive in one SFV file that is not on the list of exceptions. Nothing else is changed.", "quantifier": "all releases (trees of folders), contents of files, working folders and lists of files made before", "why_tests_cant": "Trees and names are unbounded; a file that is left out or replaced by another is only noticed when the original release is gone.", "anchors": ["bin/pyrescene.py:generate_srr", "bin/pyrescene.py:copy_to_working_dir", "bin/pyrescene.py:work_dir_file", "bin/pyrescene.py:is_storable_fix", "rescene/utility.py:capitalized_fn"]}
{"id": "C96", "title": "An SRR made from posted files is the SRR of these files on disk", "statement": "create_srr_fh, which reads everything through open handles (Usenet), makes the SRR that create_srr makes in a folder with the same files, from the same SFV files or first volumes and with the same files to store, also when downloads fail for a while. Each volume in an SRR consists of all blocks of one of its downloads. Volumes are found when their capitals differ. When a volume is missing, or its last part while the volumes have end blocks, there is no SRR. A failure leaves no file, changes no other one and keeps nothing half made; a file to store that cannot be read is left out.", "quantifier": "all sets of handles, names, SFV files, numbers of failing downloads and retries", "why_tests_cant": "Downloads fail in any pattern, and sets have any number of volumes.", "anchors": ["rescene/main.py:create_srr_fh", "rescene/main.py:_rarreader_usenet", "rescene/main.py:_handle_sfv", "rescene/main.py:_handle_rar", "rescene/main.py:_store_fh"]}
{"id": "C97", "title": "A posted file read through its handle gives the bytes of the file", "statement": "Seeking and reading through the handle of a posted file (NNTPFile), in any order and with any amounts, gives the bytes that the same operations give on the file itself, whatever parts it was posted in: the right bytes at the right position, an empty answer at the end, and an error for a position outside the file. Files other than RAR files are read as a whole without loss, also when traffic is saved by downloading parts of articles.", "quantifier": "all files, sizes of parts, rows of seeks and reads, and amounts of data that the first lines of an article have", "why_tests_cant": "the position, the parts on hand and how much of each is there depend on the whole history of seeks and reads; the corrections for damaged RAR files look at the data", "anchors": ["usenet/srr_usenet.py:NNTPFile.read", "usenet/srr_usenet.py:NNTPFile.seek", "usenet/srr_usenet.py:NNTPFile._which_segment", "usenet/srr_usenet.py:NNTPFile.grab_segment"]}
{"id": "C98", "title": "srr_usenet.py takes the right files of an NZB", "statement": "The name of a posted file is the one in quotes in the subject, or else the one in front of the counter of the parts. Of a file that was posted more than once the largest version is read, and the SFV file with the most entries is used. The SFV files are in alphabetical order, with those of extras, proofs, samples and subpacks at the end. All NFO files, images, SRS files and SFV files of subtitles are stored except the unwanted images and NFO files of sites, NFO files first. There is no SRR when a RAR file has no first part or a file is named like a known repack.", "quantifier": "all NZB files with any number of files, versions and parts, all subjects and names", "why_tests_cant": "A test has one NZB; the order of files, their names and how often they are posted are up to the one who posts.", "anchors": ["usenet/nzb_utils.py:parse_name", "usenet/srr_usenet.py:create_srr"]}
{"id": "C99", "title": "srs puts the SRS of a sample where it is asked to", "statement": "Without options the SRS is in the working folder under the name of the sample; with -o in that folder, or it is that SRS file; with --d it has the name of the folder of the sample, with --dd that of the folder around it, and with --ddd it is in that folder, with its name. It is always in a folder that exists and ends in .srs; two of these options together are refused.", "quantifier": "all paths of samples, folders and options", "why_tests_cant": "Paths, depths and names are not bounded, and the options combine.", "anchors": ["resample/srs.py:main"]}
{"id": "C100", "title": "srs_batch.py makes the SRS of every video in a folder", "statement": "Every file with the extension of a video gets an SRS in the folder of the output that matches its own, or a text with the reason when there can be none, whatever the other files are; with -n SRS files that are there are kept and the others are made. Nothing else in the output is changed.", "quantifier": "all trees of files of any contents and names, all earlier outputs, with and without -n", "why_tests_cant": "Which files are in a folder, and what is wrong with them, is not bounded; one file must not stop the others.", "anchors": ["bin/srs_batch.py:main", "bin/srs_batch.py:create_srs", "resample/srs.py:main"]}
{"id": "C101", "title": "srr_extract_srs writes exactly the SRS files of an SRR", "statement": "`srr_extract_srs file.srr folder` writes every stored SRS file of the SRR below the folder, under its stored path and with exactly the stored bytes. It writes nothing else and changes no file that exists. With a first argument that is not an SRR file, or without the folder, nothing is written.", "quantifier": "all SRR files, all names of stored files, all prior file system contents", "why_tests_cant": "The tool calls the extraction once per name, and each call may select several stored files; which file ends up where depends on the whole list of names.", "anchors": ["bin/srr_extract_srs.py:main", "rescene/main.py:extract_files", "rescene/main.py:info"]}
{"id": "C102", "title": "srr_merge joins SRR files into one", "statement": "`srr_merge` writes one SRR with all stored files and then all other blocks of the given SRRs, in their order and byte for byte, to the path given with -o, or else next to the first SRR with `_joined` in its name. No other file is changed; in particular the given SRRs keep their contents. If one of them cannot be read, nothing is written.", "quantifier": "all lists of SRR files, all output paths, all states of the output buffer", "why_tests_cant": "The data of stored files is read while the output is being written, so the result depends on which files are the same and on what has left the buffer.", "anchors": ["bin/srr_merge.py:main", "rescene/main.py:merge_srrs", "rescene/rar.py:SrrStoredFileBlock.srr_data"]}
{"id": "C103", "title": "A movie in RAR volumes is as good as the movie", "statement": "When the movie is in a set of RAR volumes without compression, srs finds out what kind of file it is from the first archived file that has the name of a video or of music, and rebuilding a sample from the first volume gives exactly what rebuilding it from the extracted movie gives, for every SRS file.", "quantifier": "all sets of stored RAR volumes with any other files in them, all movies of a known kind, all SRS files", "why_tests_cant": "The movie is cut anywhere into any number of volumes, beside any other files, and each reader opens it again in its own way.", "anchors": ["resample/main.py:file_type_info", "resample/main.py:open_main", "rescene/rarstream.py:RarStream", "rescene/rar.py:RarReader.list_files", "resample/srs.py:main"]}
{"id": "C104", "title": "A fingerprint comes from fpcalc and leaves nothing behind", "statement": "The fingerprint of a music file is what fpcalc prints about the file, or else about its data without tags, or else about that data from the last frame before an encoder's string on; otherwise there is an exception. Output counts only with a duration and a fingerprint and without an error line. The files that were there are not changed, and no temporary file is left.", "quantifier": "all music files, all names, all outputs of fpcalc, all names of temporary files, all places where attempts fail", "why_tests_cant": "Every attempt makes temporary files and can fail in several ways, and the strings can be anywhere in files of any size, across the batches they are searched in.", "anchors": ["resample/fpcalc.py:fingerprint", "resample/fpcalc.py:make_temp_suffix", "resample/mp3.py:Mp3Reader.read_part"]}
{"id": "C105", "title": "srs_size.py and srs_bad.py list exactly the files they are for", "statement": "srs_size.py prints the SRS files of a tree, in any case of the extension, whose sample is larger than the limit, in the order of the walk. srs_bad.py prints the SRR files with a text file in the place of a sample or music, or with an SRS, not for music, with a track that has no place in the movie; an SRS made without the movie is such a file, and one made with the movie is not. Both leave the files as they are.", "quantifier": "all trees of files, all SRR files and stored names, all SRS files of streams and of AVI, MP4 and MKV samples with usual structure", "why_tests_cant": "Which file is looked at depends on all stored names at once, because they are put into one folder, and what is listed depends on files of any size and form.", "anchors": ["bin/srs_size.py:main", "bin/srs_bad.py:main", "bin/srs_bad.py:handle_srr", "rescene/utility.py:empty_folder"]}
{"id": "C106", "title": "A compressed file that cannot be made alone comes from one archive of all files of its set", "statement": "When no RAR executable makes a compressed file on its own, and an earlier file was made, the packed data is taken from one archive of all files of the set, made by the executable and with the settings of an earlier file: the one before, unless another one needed more threads. Each file is given once, nothing but the files of the set is packed, data of the wrong size is never used, and without an earlier file or after any other error the error stays. Later files are not affected by it.", "quantifier": "all sets of file blocks, all files that were made before with all settings, all command lines and all behaviours of the RAR executables", "why_tests_cant": "The archive depends on all earlier files and on objects that are shared between files and releases; which files are wrong shows only in runs over several sets or releases.", "anchors": ["rescene/main.py:CompressedRarFileAll", "rescene/main.py:compressed_rar_file_factory", "rescene/main.py:RarArguments.thread_count"]}
{"id": "C107", "title": "Volumes with a compressed file are rebuilt byte for byte when an executable that made it is at hand", "statement": "An SRR made of volumes with a compressed file, the extracted file and a repository with an executable that packs the file as it was packed give the original volumes again.", "quantifier": "all volume sets with one compressed file in any number of parts and any number of stored files, all contents, all repositories, settings and behaviours of the executables, all disks", "why_tests_cant": "The right executable is found by comparing the beginning of what each makes; that all of it is then right, in every volume, depends on every executable before it in the repository and every byte of the file.", "anchors": ["rescene/main.py:reconstruct", "rescene/main.py:get_rar_data_object", "rescene/main.py:compressed_rar_file_factory", "rescene/main.py:CompressedRarFile"]}
{"id": "C108", "title": "Reconstruction reports every checksum that the files on disk do not have, and no other", "statement": "When the files on disk are not the archived ones (but have their sizes), the volumes are rebuilt from what is there, and exactly the files and volumes whose checksums in the archive headers the data does not have are reported; right files give no report.", "quantifier": "all volume sets, all contents of the files on disk, all parts and orders of files, checks switched on or off", "why_tests_cant": "A report depends on the running CRC carried over all volumes a file spans; a test covers few contents, and a wrong one that goes unreported is a wrong release that looks right.", "anchors": ["rescene/main.py:reconstruct", "rescene/main.py:_repack"]}
{"id": "C109", "title": "One volume, or the volumes of one set, can be rebuilt alone", "statement": "Asked for one volume by the end of its name, or for some by the beginning of their names and a star, reconstruction writes these volumes byte for byte as they were, and no other.", "quantifier": "all volume sets the SRR is made from, all positions of the volume in them, all names asked for, all disks", "why_tests_cant": "The place in the archived file has to be counted over the headers of all volumes that are left out; tests try one volume of one set.", "anchors": ["rescene/main.py:reconstruct"]}
{"id": "C110", "title": "Editing or merging SRR files does not change what is rebuilt", "statement": "After any number of additions, removals and renamings of stored files an SRR rebuilds the same volumes, with the same reports and failures, as before; and an SRR merged from several ones rebuilds what these rebuild one after the other.", "quantifier": "all well-formed SRR files, all histories of edits that succeed, all lists of SRR files to merge, all arguments of reconstruct without extraction of stored files and all disks", "why_tests_cant": "Histories of edits and combinations of SRR files are without bound, and what the reconstruction keeps in mind from one set to the next shows only when names meet.", "anchors": ["rescene/main.py:add_stored_files", "rescene/main.py:remove_stored_files", "rescene/main.py:rename_stored_file", "rescene/main.py:merge_srrs", "rescene/main.py:reconstruct"]}
{"id": "C111", "title": "The stored files after any history of edits", "statement": "After any sequence of additions, removals and renamings of stored files, the SRR holds exactly the files that the same steps give on lists of names and contents: added files at the end of those before the first volume, no removed one, the first file of an old name under its new name, all others with their bytes and in their order; extracting all of them then gives each one byte for byte.", "quantifier": "all well-formed SRR files, all sequences of edits that succeed, all folders, path options and disks without a positive overwrite answer", "why_tests_cant": "The number and order of edits are without bound, and each edit rewrites the whole file from what the one before it wrote.", "anchors": ["rescene/main.py:add_stored_files", "rescene/main.py:remove_stored_files", "rescene/main.py:rename_stored_file", "rescene/main.py:extract_files"]}
{"id": "C112", "title": "An edited SRR is the one that would have been created", "statement": "Creating an SRR and then adding, removing and renaming stored files, in any number of steps, gives byte for byte the SRR that is created at once with the resulting files; reconstruction from it, with or without extraction of the stored files, gives all volumes back.", "quantifier": "all lists of files to store, all volume sets as in C06, all sequences of edits that succeed, all names, options and disks", "why_tests_cant": "Two ways to the same bytes must agree for all sequences of edits; a test compares one sequence.", "anchors": ["rescene/main.py:create_srr", "rescene/main.py:add_stored_files", "rescene/main.py:remove_stored_files", "rescene/main.py:rename_stored_file", "rescene/main.py:reconstruct"]}
{"id": "C113", "title": "Any history of creating, editing and merging gives one SRR", "statement": "From the result of any history of creating SRR files, editing their stored files and merging them, reconstruction gives all the volumes back. Without OSO hashes the result is, byte for byte, the SRR that is created at once from the resulting files and all the volumes in order, with the first application name that is not empty.", "quantifier": "all trees of creations, edits and merges that succeed, all files, volume sets as in C06, names, options and disks", "why_tests_cant": "The tree of operations is unbounded; a test runs one.", "anchors": ["rescene/main.py:create_srr", "rescene/main.py:add_stored_files", "rescene/main.py:remove_stored_files", "rescene/main.py:rename_stored_file", "rescene/main.py:merge_srrs", "rescene/main.py:reconstruct"]}
{"id": "C114", "title": "The content hash and the stored files do not depend on the history", "statement": "SRR files that come from any history of creations, edits and merges of the same volumes have the same content hash, whatever their stored files, application names, OSO hashes and the order of the volumes; extracting all stored files gives exactly those that the history leaves.", "quantifier": "all pairs of trees of creations, edits and merges of the same volumes, all hash algorithms, all disks", "why_tests_cant": "Two unbounded histories are compared; a test compares two SRR files.", "anchors": ["rescene/main.py:content_hash", "rescene/main.py:info", "rescene/main.py:create_srr", "rescene/main.py:merge_srrs", "rescene/main.py:extract_files"]}
{"id": "C115", "title": "Splitting, merging and renaming NZB files loses no file", "statement": "nzb_split.py puts every file of an NZB with a name for its release in the NZB of that release, in order and behind the files that are there, and touches no other NZB; nzb_merge.py puts the files of all NZB files of a folder in the one with the shortest name and removes the others, and wherever it is stopped every file is still in some NZB; nzb_rename.py keeps every NZB, under its new name.", "quantifier": "all NZB files (any number of files, in any order, any names for releases), all output folders, all folders and orders of listing, all points at which a merge can be stopped", "why_tests_cant": "Files are lost for certain orders of the files, for certain names that coincide, and at one crash point only; all of these are unbounded.", "anchors": ["usenet/nzb_split.py:main", "usenet/nzb_merge.py:merge_nzbs", "usenet/nzb_rename.py:main"]}
{"id": "C116", "title": "The SRR of damaged volumes", "statement": "An SRR made from volumes of which only packed data or recovery records are damaged rebuilds the volumes as they were before the damage; volumes with damaged headers or that are cut off are refused.", "quantifier": "all volume sets as in C06, all damage to any number of bytes of packed data and recovery records, all stored files, options and disks", "why_tests_cant": "The damage can be anywhere in files of any size; a test damages a few places.", "anchors": ["rescene/main.py:create_srr", "rescene/main.py:reconstruct", "rescene/rar.py:RarReader"]}
{"id": "C117", "title": "The date of an archive", "statement": "The times that a file header has are read as they were stored: the DOS time, and the extended times of modification, creation, access and archiving with their odd seconds and fractions; extended times that are cut off raise an error. The date for which RAR executables are looked up is the day of the latest of all these times of all files of the archive, so that the first executable that is tried is the oldest one that was released on that day or later, or the newest one when all are older.", "quantifier": "all file headers, all combinations of extended times, all archives and all repositories of executables", "why_tests_cant": "There are 65536 combinations of flags for the extended times, and any number of files and executables.", "anchors": ["rescene/rar.py:_parse_ext_time", "rescene/rar.py:_parse_xtime", "rescene/main.py:get_most_recent_date", "rescene/main.py:get_rar_executables"]}
{"id": "C118", "title": "Files are replaced and folders made only with leave", "statement": "srs, srr, pyrescene.py and retag.py replace a file that exists only with -y, or, without -n, when the first answer that is a yes or a no is a yes; they go on asking until there is one. With -n nothing is replaced. When the user says no to replacing a sample, no file is touched. pyrescene.py makes a missing folder for the output only with -y or after a yes.", "quantifier": "all files on disk, options and sequences of answers", "why_tests_cant": "Users can type anything any number of times before they answer; a test types one answer and runs one tool.", "anchors": ["resample/srs.py:can_overwrite", "bin/pyrescene.py:can_create", "bin/pyrescene.py:main", "bin/retag.py:main", "bin/retag.py:fix_tagging", "rescene/srr.py:can_overwrite"]}
{"id": "C119", "title": "A list of files to store can be used again", "statement": "When a program creates several SRR files one after the other with the same list of files to store, each SRR is the one that it gets with the list as the program wrote it: the input of one call does not show in the SRR of another.", "quantifier": "all lists of files to store, all sequences of calls of create_srr and contents of the disk at each call", "why_tests_cant": "The effect is only seen in a history of calls, not in one call.", "anchors": ["rescene/main.py:create_srr"]}
{"id": "C120", "title": "Adding files quietly", "statement": "With usenet=True, add_stored_files skips files that are stored already and files that cannot be read, and stores the others, without an exception. Whatever happens, no stored file is lost and no temporary file is left.", "quantifier": "all SRR files and all lists of paths and open files", "why_tests_cant": "The mix of stored, unreadable and new files is unbounded; the existing tests do not use the option.", "anchors": ["rescene/main.py:add_stored_files", "rescene/main.py:_store_fh", "usenet/srr_usenet.py:main"]}
{"id": "C121", "title": "unrar is found, and pyrescene.py works without it", "statement": "unrar is taken from the first of these places that has it: the two folders for programs (WinRAR before Unrar), the folder in the registry, the search path, the working folder; on other systems from the search path. Without it the option --vobsub-srr is ignored and --vobsubs ends with status 1.", "quantifier": "all environments, file systems and registries", "why_tests_cant": "Each test machine has one environment.", "anchors": ["rescene/unrar.py:locate_unrar", "rescene/unrar.py:locate_windows", "rescene/unrar.py:try_registry", "bin/pyrescene.py:unrar_is_available"]}
