{
 "claims": [
  {
   "property": "C01",
   "status": "proved",
   "theorems": [
    "Rescene.Props.stored_accepted_iff",
    "Rescene.Props.stored_length",
    "Rescene.Props.stored_round_trip"
   ],
   "note": ""
  },
  {
   "property": "C02",
   "status": "proved",
   "theorems": [
    "Rescene.Props.srrHeader_accepted_iff",
    "Rescene.Props.srrHeader_too_long",
    "Rescene.Props.srrHeader_round_trip"
   ],
   "note": ""
  },
  {
   "property": "C03",
   "status": "proved",
   "theorems": [
    "Rescene.Props.rarFile_accepted_iff",
    "Rescene.Props.rarFile_round_trip",
    "Rescene.Props.oso_accepted_iff",
    "Rescene.Props.oso_round_trip",
    "Rescene.Props.padding_round_trip",
    "Rescene.Props.padding_too_long"
   ],
   "note": ""
  },
  {
   "property": "C04",
   "status": "proved",
   "theorems": [
    "Rescene.Props.iteration_ends",
    "Rescene.Props.iteration_deterministic",
    "Rescene.Props.readTrace_spec",
    "Rescene.Props.tiles_cover"
   ],
   "note": ""
  },
  {
   "property": "C05",
   "status": "proved",
   "theorems": [
    "Rescene.Props.written_srr_reads_back"
   ],
   "note": ""
  },
  {
   "property": "C06",
   "status": "proved",
   "theorems": [
    "Rescene.Props.create_reconstruct",
    "Rescene.Props.create_pieces",
    "Rescene.Props.written_blocks"
   ],
   "note": "For volumes that the reader reads to the end, whose blocks are of known types and whose recovery records are right (GoodVolume). Packed data of compressed files is an argument. Choosing the names of volumes and stored files is covered by C69 to C71, where create_from_reconstruct starts from the arguments of create_srr."
  },
  {
   "property": "C07",
   "status": "proved",
   "theorems": [
    "Rescene.Props.srr_packed_independent",
    "Rescene.Props.srr_packed_only_oso",
    "Rescene.Props.read_packed_independent"
   ],
   "note": ""
  },
  {
   "property": "C08",
   "status": "proved",
   "theorems": [
    "Rescene.Props.add_inserts",
    "Rescene.Props.add_duplicate"
   ],
   "note": "for well-formed SRRs (Contents); usenet=True is not modelled"
  },
  {
   "property": "C09",
   "status": "proved",
   "theorems": [
    "Rescene.Props.remove_drops",
    "Rescene.Props.remove_undoes_add",
    "Rescene.Props.removed_below_20_unreadable"
   ],
   "note": "the result is re-readable when it has at least 20 bytes; below that the reader refuses every file"
  },
  {
   "property": "C10",
   "status": "proved",
   "theorems": [
    "Rescene.Props.rename_changes_name",
    "Rescene.Props.rename_not_found"
   ],
   "note": ""
  },
  {
   "property": "C11",
   "status": "partial",
   "theorems": [
    "Rescene.Props.failed_add_changes_nothing_partial",
    "Rescene.Props.add_duplicate",
    "Rescene.Props.add_bad_file",
    "Rescene.Props.failed_add_can_leave_temp"
   ],
   "note": "faults of close/remove/rename are excluded: for a failing rename the claim is false of the code (failed_add_can_leave_temp)"
  },
  {
   "property": "C12",
   "status": "proved",
   "theorems": [
    "Rescene.Props.merge_result"
   ],
   "note": ""
  },
  {
   "property": "C13",
   "status": "proved",
   "theorems": [
    "Rescene.Props.extract_result",
    "Rescene.Props.extract_never_overwrites"
   ],
   "note": ""
  },
  {
   "property": "C14",
   "status": "proved",
   "theorems": [
    "Rescene.Props.extraction_name_accepted_iff",
    "Rescene.Props.extraction_stays_below"
   ],
   "note": ""
  },
  {
   "property": "C15",
   "status": "partial",
   "theorems": [
    "Rescene.Props.content_hash_is",
    "Rescene.Props.content_hash_same",
    "Rescene.Props.content_hash_add",
    "Rescene.Props.content_hash_remove",
    "Rescene.Props.content_hash_rename",
    "Rescene.Props.content_hash_ignores_volume",
    "Rescene.Props.content_hash_remove_inside"
   ],
   "note": "For SRR files whose volumes have different lower case base names. Volumes with the same base name in different folders replace each other, so the hash then ignores one (content_hash_ignores_volume). Removing is proved for stored files that are not in the middle of a volume; what follows such a file is not hashed, so removing it changes the hash (content_hash_remove_inside)."
  },
  {
   "property": "C16",
   "status": "proved",
   "theorems": [
    "Rescene.Props.info_sizes"
   ],
   "note": "For volumes with blocks of known types and right recovery records (GoodVolume) that give subblock sizes the usual way, with different lower case base names."
  },
  {
   "property": "C17",
   "status": "proved",
   "theorems": [
    "Rescene.Props.repack_exact"
   ],
   "note": ""
  },
  {
   "property": "C18",
   "status": "proved",
   "theorems": [
    "Rescene.Props.crc_any_chunks",
    "Rescene.Props.calculate_crc32_correct"
   ],
   "note": "CRC-32 is the reflected polynomial division over BitVec 32; splitting the data in any pieces gives the same value."
  },
  {
   "property": "C19",
   "status": "proved",
   "theorems": [
    "Rescene.Props.crc32_combine_correct",
    "Rescene.Props.crc32_combine_negative"
   ],
   "note": "Proved by showing the matrices represent appending zero bits (GF(2)-linear)."
  },
  {
   "property": "C20",
   "status": "proved",
   "theorems": [
    "Rescene.Props.recovery_record",
    "Rescene.Props.missing_sector"
   ],
   "note": ""
  },
  {
   "property": "C21",
   "status": "partial",
   "theorems": [
    "Rescene.Props.rar_stream_partial",
    "Rescene.Props.rar_stream_mixes_files",
    "Rescene.Props.rar_stream_empty_part"
   ],
   "note": "Without a name the first file of every single volume is taken, so different files can be joined (rar_stream_mixes_files); an empty first part is read as the end (rar_stream_empty_part). Otherwise proved for every history of calls on every volume set."
  },
  {
   "property": "C22",
   "status": "proved",
   "theorems": [
    "Rescene.Props.fake_file"
   ],
   "note": ""
  },
  {
   "property": "C23",
   "status": "proved",
   "theorems": [
    "Rescene.Props.oso_hash",
    "Rescene.Props.oso_hash_rar"
   ],
   "note": "For files opened at the beginning, plain or in RAR volumes."
  },
  {
   "property": "C24",
   "status": "proved",
   "theorems": [
    "Rescene.Props.sfv_no_line_lost",
    "Rescene.Props.sfv_counts",
    "Rescene.Props.sfv_by_lines"
   ],
   "note": ""
  },
  {
   "property": "C25",
   "status": "partial",
   "theorems": [
    "Rescene.Props.sfv_entry_checksum",
    "Rescene.Props.sfv_line_parsed",
    "Rescene.Props.sfv_empty_name"
   ],
   "note": "Checksums are always eight hexadecimal digits and well-formed lines are parsed exactly. An entry can have an empty file name (sfv_empty_name)."
  },
  {
   "property": "C26",
   "status": "partial",
   "theorems": [
    "Rescene.Props.sfv_lt_iff",
    "Rescene.Props.sfv_lt_irrefl",
    "Rescene.Props.sfv_lt_total",
    "Rescene.Props.sfv_lt_trans_partial",
    "Rescene.Props.sfv_lt_cycle",
    "Rescene.Props.sfv_new_volumes",
    "Rescene.Props.sfv_old_volumes"
   ],
   "note": "The order is irreflexive, total and correct on volumes; it is not transitive (sfv_lt_cycle), but is on lists where nothing else lies between volumes and their .rar."
  },
  {
   "property": "C27",
   "status": "partial",
   "theorems": [
    "Rescene.Props.next_after_rar",
    "Rescene.Props.next_old",
    "Rescene.Props.old_names_distinct",
    "Rescene.Props.next_new",
    "Rescene.Props.next_new_overflow",
    "Rescene.Props.next_num",
    "Rescene.Props.next_num_overflow",
    "Rescene.Props.new_names_distinct",
    "Rescene.Props.next_accepts_iff"
   ],
   "note": "Proved for all names up to .z99, up to the last number of the width of part names and up to .999. Behind these the result is not a volume of the set: next_new_overflow (documented as undefined) and next_num_overflow."
  },
  {
   "property": "C28",
   "status": "partial",
   "theorems": [
    "Rescene.Props.is_rar_iff",
    "Rescene.Props.is_rar_newline",
    "Rescene.Props.is_first_iff",
    "Rescene.Props.first_rars_from_input",
    "Rescene.Props.first_rars_are_first",
    "Rescene.Props.first_rars_old",
    "Rescene.Props.first_rars_new",
    "Rescene.Props.first_rars_num",
    "Rescene.Props.first_rars_skips_set"
   ],
   "note": "The list shrinks while it is iterated lazily, so the first volume of a second numbered set can be missed (first_rars_skips_set). What is returned is always characterised."
  },
  {
   "property": "C29",
   "status": "proved",
   "theorems": [
    "Rescene.Props.joinpath_accepts_iff",
    "Rescene.Props.joinpath_splits_back",
    "Rescene.Props.joinpath_injective"
   ],
   "note": ""
  },
  {
   "property": "C30",
   "status": "proved",
   "theorems": [
    "Rescene.Props.ebml_accepted_iff",
    "Rescene.Props.ebml_refused",
    "Rescene.Props.ebml_round_trip",
    "Rescene.Props.ebml_reads_every_vint"
   ],
   "note": "Writer accepts exactly n < 2^49 (larger numbers raise UnboundLocalError); both readers invert it and read every 1..8 byte EBML integer."
  },
  {
   "property": "C31",
   "status": "partial",
   "theorems": [
    "Rescene.Props.lacing_kind",
    "Rescene.Props.lacing_none_xiph",
    "Rescene.Props.lacing_fixed_ebml_partial",
    "Rescene.Props.lacing_one_frame",
    "Rescene.Props.lacing_covers_block"
   ],
   "note": "Proved for no lacing and Xiph lacing, and for fixed and EBML lacing with two or more frames. The code violates it for a single frame with fixed or EBML lacing (lacing_one_frame)."
  },
  {
   "property": "C32",
   "status": "proved",
   "theorems": [
    "Rescene.Props.id3_round_trip",
    "Rescene.Props.id3_limit",
    "Rescene.Props.id3_reencode"
   ],
   "note": ""
  },
  {
   "property": "C33",
   "status": "proved",
   "theorems": [
    "Rescene.Props.file_data_round_trip",
    "Rescene.Props.file_data_accepted_iff"
   ],
   "note": "The name is stored as its base name and the CRC modulo 2^32, as the code does."
  },
  {
   "property": "C34",
   "status": "partial",
   "theorems": [
    "Rescene.Props.track_data_round_trip_partial",
    "Rescene.Props.track_data_small_number",
    "Rescene.Props.track_data_big_number_broken",
    "Rescene.Props.track_data_accepted_iff"
   ],
   "note": "Holds whenever flag 8 is set exactly for numbers of 65536 and more. No code sets flag 8, so big track numbers do not round trip (track_data_big_number_broken)."
  },
  {
   "property": "C35",
   "status": "partial",
   "theorems": [
    "Rescene.Props.stream_sample_rebuilt_partial",
    "Rescene.Props.stream_create_iff",
    "Rescene.Props.srs_result_sound",
    "Rescene.Props.stream_sample_repeated_signature"
   ],
   "note": "An SRS is made exactly of the files within the limits of size and name (stream_create_iff). Rebuilt byte for byte whenever the sample starts at the first occurrence of its first 256 bytes. False in general: only the first occurrence is tried (stream_sample_repeated_signature)."
  },
  {
   "property": "C36",
   "status": "proved",
   "theorems": [
    "Rescene.Props.search_finds_first",
    "Rescene.Props.search_not_found",
    "Rescene.Props.search_empty",
    "Rescene.Props.find_sets_offset"
   ],
   "note": "Exact for every non-empty signature an SRS can hold; an empty signature in an empty file is reported as not found (search_empty)."
  },
  {
   "property": "C37",
   "status": "partial",
   "theorems": [
    "Rescene.Props.avi_strip_rebuild_partial",
    "Rescene.Props.avi_create_succeeds",
    "Rescene.Props.avi_accepted",
    "Rescene.Props.riff_terminates",
    "Rescene.Props.avi_reported_crc",
    "Rescene.Props.avi_movi_needed",
    "Rescene.Props.avi_own_chunk_lost"
   ],
   "note": "Proved for all samples with a list movi in front of the stream data and no chunks with the names SRS files use; false for the others (avi_movi_needed, avi_own_chunk_lost). Every accepted file is a sequence of lists and chunks (avi_accepted)."
  },
  {
   "property": "C38",
   "status": "partial",
   "theorems": [
    "Rescene.Props.flac_rebuilt_partial",
    "Rescene.Props.flac_create_succeeds",
    "Rescene.Props.flac_result_sound",
    "Rescene.Props.flac_terminates",
    "Rescene.Props.flac_id3_never_rebuilt",
    "Rescene.Props.flac_tags_not_rebuilt",
    "Rescene.Props.flac_own_block_lost"
   ],
   "note": "Proved for FLAC files without tags and without blocks of types 115 to 117, of which an SRS can always be made (flac_create_succeeds); the rest is false: on Python 3 a file with an ID3v2 tag is never rebuilt, and a block of type 115 is lost."
  },
  {
   "property": "C39",
   "status": "partial",
   "theorems": [
    "Rescene.Props.mp3_rebuilt_partial",
    "Rescene.Props.mp3_usual_rebuilt",
    "Rescene.Props.mp3_create_succeeds",
    "Rescene.Props.mp3_result_sound",
    "Rescene.Props.mp3_lyrics3_never_rebuilt",
    "Rescene.Props.mp3_lyrics3_not_rebuilt",
    "Rescene.Props.mp3_prepended_refused",
    "Rescene.Props.mp3_not_found"
   ],
   "note": "Proved for files with any ID3v2 tags in front and any APE, Lyrics3, Lyrics3v2 and ID3v1 tags behind (without tags in front the data may start with anything but SRS), provided the SRS itself is not mistaken for other tags; without that proviso for files with ID3 tags and a usual fingerprint. False in general: a Lyrics3 tag needs 5100 bytes before its end, which an SRS without the sound does not have; a main file with other data before the sound is refused."
  },
  {
   "property": "C40",
   "status": "partial",
   "theorems": [
    "Rescene.Props.mp4_strip_rebuild_partial",
    "Rescene.Props.mp4_create_succeeds",
    "Rescene.Props.mp4_two_mdat_not_rebuilt",
    "Rescene.Props.mp4_backward_not_rebuilt",
    "Rescene.Props.mp4_new_heads_not_accepted",
    "Rescene.Props.mp4_big_track_number_not_rebuilt",
    "Rescene.Props.mp4_own_atom_not_rebuilt",
    "Rescene.Props.mp4_no_mdat_not_loaded",
    "Rescene.Props.mp4_incomplete_refused",
    "Rescene.Props.compact_sizes_wrong",
    "Rescene.Props.mp4_compact_refused"
   ],
   "note": "Proved for every sample (of which an SRS can always be made, mp4_create_succeeds) with one mdat whose data is the track chunks, ordered by their places in the file, with version 0 track headers, sample sizes in stsz (not stz2), track numbers below 65536 and no atoms with the names SRS files use; false for the others, as the other theorems show."
  },
  {
   "property": "C41",
   "status": "partial",
   "theorems": [
    "Rescene.Props.mkv_strip_rebuild_partial",
    "Rescene.Props.mkv_srs_rebuilds",
    "Rescene.Props.mkv_create_succeeds",
    "Rescene.Props.mkv_self_example",
    "Rescene.Props.mkv_late_attachments",
    "Rescene.Props.mkv_same_name",
    "Rescene.Props.mkv_track_200",
    "Rescene.Props.mkv_unknown_cluster",
    "Rescene.Props.mkv_codec_first",
    "Rescene.Props.mkv_own_element",
    "Rescene.Props.mkv_empty_frames"
   ],
   "note": "Proved for all files that are a sequence of well-formed elements with the descriptions of tracks before the clusters and attachments of different names, track numbers below 2^16. False otherwise: two attachments of one name (mkv_same_name), an SRS element in the sample (mkv_own_element), clusters of unknown size (mkv_unknown_cluster), a codec before the track number (mkv_codec_first)."
  },
  {
   "property": "C42",
   "status": "partial",
   "theorems": [
    "Rescene.Props.srs_load_terminates_partial",
    "Rescene.Props.srs_load_hangs",
    "Rescene.Props.srs_load_returns_iff",
    "Rescene.Props.srs_blocks_tile"
   ],
   "note": "The code loops forever exactly on files that begin with STRM or M2TS and a zero size field; on all other files it returns."
  },
  {
   "property": "C43",
   "status": "partial",
   "theorems": [
    "Rescene.Props.yenc_text",
    "Rescene.Props.yenc_article_partial",
    "Rescene.Props.yenc_segment_partial",
    "Rescene.Props.yenc_checked",
    "Rescene.Props.yenc_other_escape"
   ],
   "note": "Escapes of characters outside the decoder's fixed list are not undone (yenc_other_escape)."
  },
  {
   "property": "C44",
   "status": "proved",
   "theorems": [
    "Rescene.Props.glob_escape",
    "Rescene.Props.search_exact",
    "Rescene.Props.search_no_wildcards"
   ],
   "note": "As a consequence wildcards, which the description of _search accepts, never find anything (search_no_wildcards)."
  },
  {
   "property": "C45",
   "status": "partial",
   "theorems": [
    "Rescene.Props.threads_range",
    "Rescene.Props.threads_range_mem",
    "Rescene.Props.threads_set_partial",
    "Rescene.Props.threads_set_skips",
    "Rescene.Props.threads_min_above_max",
    "Rescene.Props.threads_stop"
   ],
   "note": "With an unsorted set counts are skipped (threads_set_skips); a minimum above the maximum is tried once (threads_min_above_max)."
  },
  {
   "property": "C46",
   "status": "proved",
   "theorems": [
    "Rescene.Props.dos_time",
    "Rescene.Props.dos_time_complete"
   ],
   "note": ""
  },
  {
   "property": "C47",
   "status": "partial",
   "theorems": [
    "Rescene.Props.dict_of_flags_partial",
    "Rescene.Props.dict_directory",
    "Rescene.Props.dict_injective",
    "Rescene.Props.compression_parameter"
   ],
   "note": "Directories get -mdG, a 4 MiB dictionary (dict_directory)."
  },
  {
   "property": "C48",
   "status": "partial",
   "theorems": [
    "Rescene.Props.unicode_name_iff",
    "Rescene.Props.unicode_name_total",
    "Rescene.Props.unicode_every_name",
    "Rescene.Props.unicode_utf8_name_refused"
   ],
   "note": "A name flagged unicode without a zero byte is UTF-8 by the format; the code refuses or misreads it (unicode_utf8_name_refused)."
  },
  {
   "property": "C49",
   "status": "partial",
   "theorems": [
    "Rescene.Props.add_crash_safe",
    "Rescene.Props.rename_crash_safe",
    "Rescene.Props.remove_crash_safe_partial",
    "Rescene.Props.remove_can_lose_srr"
   ],
   "note": "proved for add and rename under all faults, for remove when the replacement itself does not raise; otherwise false of the code (remove_can_lose_srr)"
  },
  {
   "property": "C50",
   "status": "proved",
   "theorems": [
    "Rescene.Props.usenet_first_good",
    "Rescene.Props.usenet_gives_up",
    "Rescene.Props.usenet_result"
   ],
   "note": "There are read_retries + 3 attempts in total."
  },
  {
   "property": "C51",
   "status": "partial",
   "theorems": [
    "Rescene.Props.full_packed_size",
    "Rescene.Props.first_volume_size",
    "Rescene.Props.volume_size_padding"
   ],
   "note": "Padding behind the archive end block is not counted (volume_size_padding)."
  },
  {
   "property": "C52",
   "status": "partial",
   "theorems": [
    "Rescene.Props.srs_result_right_partial",
    "Rescene.Props.srs_success_right",
    "Rescene.Props.srs_good_placed",
    "Rescene.Props.srs_any_good_placed",
    "Rescene.Props.srs_refused",
    "Rescene.Props.srs_others_untouched",
    "Rescene.Props.srs_size_unchecked",
    "Rescene.Props.srs_bad_file_moment",
    "Rescene.Props.srs_double_slash_fails"
   ],
   "note": "Proved for the CRC and for the end of every run in which deleting and renaming do not fail. The size is never compared (srs_size_unchecked), a wrong video sample is put at the result path before it is deleted (srs_bad_file_moment), and with two slashes at the end of the output folder a good rebuild is never placed (srs_double_slash_fails)."
  },
  {
   "property": "C53",
   "status": "partial",
   "theorems": [
    "Rescene.Props.srs_result_in_folder_partial",
    "Rescene.Props.srs_name_written",
    "Rescene.Props.srs_absolute_name",
    "Rescene.Props.srs_parent_name",
    "Rescene.Props.srs_absolute_loaded"
   ],
   "note": "Proved for names without path separators, which is what the program itself writes. The property is false for other names in an SRS: absolute names and names with .. are used as they are."
  },
  {
   "property": "C54",
   "status": "partial",
   "theorems": [
    "Rescene.Props.sfv_duplicates_only",
    "Rescene.Props.sfv_duplicates_removed_partial",
    "Rescene.Props.sfv_duplicates_left",
    "Rescene.Props.same_sfv_sound",
    "Rescene.Props.same_sfv_complete"
   ],
   "note": "No entry is lost or invented; duplicates that differ in case can stay (sfv_duplicates_left). The sort itself is a parameter."
  },
  {
   "property": "C55",
   "status": "proved",
   "theorems": [
    "Rescene.Props.executables_all",
    "Rescene.Props.executables_order"
   ],
   "note": ""
  },
  {
   "property": "C56",
   "status": "proved",
   "theorems": [
    "Rescene.Props.reconstruct_never_overwrites",
    "Rescene.Props.reconstruct_stays_below",
    "Rescene.Props.reconstruct_refused"
   ],
   "note": "For runs that end without an exception."
  },
  {
   "property": "C57",
   "status": "proved",
   "theorems": [
    "Rescene.Props.create_stored_only",
    "Rescene.Props.create_compressed_same",
    "Rescene.Props.create_compressed_refused"
   ],
   "note": ""
  },
  {
   "property": "C58",
   "status": "partial",
   "theorems": [
    "Rescene.Props.info_stored",
    "Rescene.Props.info_oso_app",
    "Rescene.Props.info_sfv",
    "Rescene.Props.info_archived",
    "Rescene.Props.info_archived_size",
    "Rescene.Props.info_archived_size_any",
    "Rescene.Props.info_empty_first_part",
    "Rescene.Props.info_unknown64_zero"
   ],
   "note": "All parts are proved. info_archived_size_any says which size is reported when the headers disagree. Sizes are wrong for a stored file of unknown size whose first part is empty (info_empty_first_part) and are reported as 0 when all headers say unknown with 64 bits (info_unknown64_zero)."
  },
  {
   "property": "C59",
   "status": "proved",
   "theorems": [
    "Rescene.Props.mp3_reader_terminates",
    "Rescene.Props.flac_terminates"
   ],
   "note": ""
  },
  {
   "property": "C60",
   "status": "partial",
   "theorems": [
    "Rescene.Props.srs_music_source_kept",
    "Rescene.Props.srs_music_crash_safe",
    "Rescene.Props.srs_others_untouched",
    "Rescene.Props.srs_failure_deletes_existing"
   ],
   "note": "Proved for the file a music track is rebuilt from and for all files not at the result path. False for other files at the result path: a failed rebuild deletes them (srs_failure_deletes_existing)."
  },
  {
   "property": "C61",
   "status": "partial",
   "theorems": [
    "Rescene.Props.srs_no_temp_left_partial",
    "Rescene.Props.srs_any_good_placed",
    "Rescene.Props.srs_retry_leaves_temp"
   ],
   "note": "Proved when the first attempt succeeds, and in the other cases for all files but the one the first attempt wrote; false when a later one does (srs_retry_leaves_temp)."
  },
  {
   "property": "C62",
   "status": "partial",
   "theorems": [
    "Rescene.Props.avi_cut_rebuilt_partial",
    "Rescene.Props.avi_cut_rebuilt_from_partial",
    "Rescene.Props.avi_checked_rebuilt_partial",
    "Rescene.Props.avi_checked_rebuilt_from_partial",
    "Rescene.Props.avi_self_rebuilt",
    "Rescene.Props.avi_result_sound",
    "Rescene.Props.avi_extra_track_fails",
    "Rescene.Props.avi_false_start",
    "Rescene.Props.avi_empty_track_fails"
   ],
   "note": "Proved for every movie in which the tracks all go on behind the place of the sample and in which nothing before it looks like its start, to the end of a chunk, for SRS files made without and with the movie at hand. False without that: a track of the movie that only occurs before (avi_extra_track_fails), data that looks like the start (avi_false_start), a track without data (avi_empty_track_fails)."
  },
  {
   "property": "C63",
   "status": "partial",
   "theorems": [
    "Rescene.Props.mp4_loops_end_partial",
    "Rescene.Props.mp4_rebuild_ends",
    "Rescene.Props.mp4_profile_ends",
    "Rescene.Props.mp4_find_does_not_end"
   ],
   "note": "Profiling a sample always ends. The other loops end unless an atom with a 64-bit size of zero is skipped; with one the search in a main file never ends (mp4_find_does_not_end)."
  },
  {
   "property": "C64",
   "status": "partial",
   "theorems": [
    "Rescene.Props.mp4_cut_rebuilt_partial",
    "Rescene.Props.mp4_checked_rebuilt_partial",
    "Rescene.Props.mp4_self_rebuilt",
    "Rescene.Props.mp4_result_sound",
    "Rescene.Props.mp4_reported_crc",
    "Rescene.Props.mp4_repeated_signature",
    "Rescene.Props.mp4_inside_sample_not_found",
    "Rescene.Props.mp4_checked_empty_track"
   ],
   "note": "Proved for samples as in C40 and movies with ordered chunks, when each track was cut at the start of a sample of the movie and its first 256 bytes are not at the start of an earlier one. False without that (mp4_repeated_signature, mp4_inside_sample_not_found), and for tracks without data when the movie is given at creation (mp4_checked_empty_track)."
  },
  {
   "property": "C65",
   "status": "proved",
   "theorems": [
    "Rescene.Props.mkv_loops_end",
    "Rescene.Props.mkv_walk_ends",
    "Rescene.Props.mkv_profile_ends",
    "Rescene.Props.mkv_create_ends",
    "Rescene.Props.mkv_load_ends",
    "Rescene.Props.mkv_find_ends",
    "Rescene.Props.mkv_extract_ends",
    "Rescene.Props.mkv_rebuild_ends"
   ],
   "note": "The step budget of one step per byte is never used up, for all loops and all inputs."
  },
  {
   "property": "C66",
   "status": "partial",
   "theorems": [
    "Rescene.Props.mkv_cut_rebuilt_partial",
    "Rescene.Props.mkv_checked_rebuilt_partial",
    "Rescene.Props.example_mkv_checked",
    "Rescene.Props.mkv_self_rebuilt",
    "Rescene.Props.example_mkv_self",
    "Rescene.Props.mkv_result_sound",
    "Rescene.Props.mkv_reported_crc",
    "Rescene.Props.example_mkv_rebuilt",
    "Rescene.Props.mkv_late_attachments",
    "Rescene.Props.mkv_strips_differ",
    "Rescene.Props.mkv_track_200",
    "Rescene.Props.mkv_signature_ends_in_strip",
    "Rescene.Props.mkv_overlapping_start"
   ],
   "note": "Proved for samples as in C41 and movies whose attachments come before the clusters, when no run of frames that begins earlier looks like the start of the track up to where that begins and the stripped bytes are the same in both files or absent in one; a file that is both and has no empty frames is rebuilt from itself (mkv_self_rebuilt); SRS files made with the movie at hand are covered too (mkv_checked_rebuilt_partial). False without that: a start inside an earlier look-alike (mkv_overlapping_start), attachments after the clusters (mkv_late_attachments), different stripped bytes (mkv_strips_differ), a signature that ends inside stripped bytes (mkv_signature_ends_in_strip), track numbers from 128 on in one byte (mkv_track_200). The further attempts for tracks with a short signature after a wrong CRC are in C77."
  },
  {
   "property": "C67",
   "status": "partial",
   "theorems": [
    "Rescene.Props.wmv_strip_rebuild_partial",
    "Rescene.Props.wmv_create_succeeds",
    "Rescene.Props.wmv_reported_crc",
    "Rescene.Props.wmv_create_ends",
    "Rescene.Props.wmv_load_ends",
    "Rescene.Props.wmv_reconstruct_ends",
    "Rescene.Props.wmv_load_hangs",
    "Rescene.Props.wmv_find_hangs",
    "Rescene.Props.wmv_unlucky_lost",
    "Rescene.Props.wmv_own_object_lost",
    "Rescene.Props.wmv_two_data_lost",
    "Rescene.Props.wmv_streams_confused",
    "Rescene.Props.wmv_slack_refused"
   ],
   "note": "Proved for files with one data object that its packets fill, without objects that have the GUID of an SRS object, unless two or more packets at the end are without their data as long as one packet (then the sample is lost, proved). The loops end unless an object claims to have no bytes (then loading and searching never end, proved)."
  },
  {
   "property": "C68",
   "status": "partial",
   "theorems": [
    "Rescene.Props.wmv_cut_rebuilt_partial",
    "Rescene.Props.wmv_checked_rebuilt_partial",
    "Rescene.Props.wmv_self_rebuilt",
    "Rescene.Props.wmv_result_sound",
    "Rescene.Props.wmv_missing_stream_raises",
    "Rescene.Props.wmv_empty_stream_raises",
    "Rescene.Props.wmv_false_start_lost"
   ],
   "note": "Proved when every stream of the movie has data in the sample and no place before the right one looks like the first 256 bytes up to the end of the payload with the start. Without that the sample is not rebuilt: the search raises IndexError or AttributeError, or misses the start (proved)."
  },
  {
   "property": "C69",
   "status": "partial",
   "theorems": [
    "Rescene.Props.sfv_input_members",
    "Rescene.Props.sfv_input_set",
    "Rescene.Props.sfv_input_old",
    "Rescene.Props.sfv_input_new",
    "Rescene.Props.capitalized_spec",
    "Rescene.Props.capitalized_none",
    "Rescene.Props.capitalized_same",
    "Rescene.Props.rar_input_found",
    "Rescene.Props.rar_input_case",
    "Rescene.Props.rar_input_missing",
    "Rescene.Props.rars_found",
    "Rescene.Props.create_from_reconstruct",
    "Rescene.Props.collect_sfv",
    "Rescene.Props.collect_append",
    "Rescene.Props.create_missing_volume",
    "Rescene.Props.inRebuilt",
    "Rescene.Props.capitals_wrong_file",
    "Rescene.Props.oso_lost_by_capitals"
   ],
   "note": "The volumes are those that the SFV lists and, for sets whose names leave no room for other names between volumes, in the order of the set. The file with the given name is taken when it is the only one with that name up to case. False in part: of several files whose names are the same up to case the first one that the system lists is taken, also when another one has exactly the given name (capitals_wrong_file), and hashes of archived files are lost when a volume is found by capitals (oso_lost_by_capitals)."
  },
  {
   "property": "C70",
   "status": "partial",
   "theorems": [
    "Rescene.Props.naming_iff",
    "Rescene.Props.readFirst_never_fuel",
    "Rescene.Props.rar_input_ends",
    "Rescene.Props.rar_input_old",
    "Rescene.Props.rar_input_new",
    "Rescene.Props.rar_input_num",
    "Rescene.Props.rar_input_sound",
    "Rescene.Props.rar_input_later_refused",
    "Rescene.Props.rar_input_num_refused",
    "Rescene.Props.rar_input_later_part_accepted",
    "Rescene.Props.collect_rar"
   ],
   "note": "False for the new naming: base.part02.rar is accepted as a first volume and an SRR without volume one is made (rar_input_later_part_accepted)."
  },
  {
   "property": "C71",
   "status": "partial",
   "theorems": [
    "Rescene.Props.srrName_saved",
    "Rescene.Props.plain_name",
    "Rescene.Props.saved_name_leads",
    "Rescene.Props.saved_name_below",
    "Rescene.Props.stored_exact",
    "Rescene.Props.sfv_is_stored",
    "Rescene.Props.saved_name_outside",
    "Rescene.Props.sfv_not_stored",
    "Rescene.Props.sfv_stored_twice"
   ],
   "note": "Proved for absolute paths and folders without links. False: a file outside the folder gets a name with .. that can never be extracted (saved_name_outside), an SFV given by a relative path is not stored when there is an input folder (sfv_not_stored), an SFV that is also asked for by another spelling is stored twice (sfv_stored_twice)."
  },
  {
   "property": "C72",
   "status": "partial",
   "theorems": [
    "Rescene.Props.create_only_writes_srr",
    "Rescene.Props.create_keeps_existing",
    "Rescene.Props.create_writes_contents",
    "Rescene.Props.create_success_sound",
    "Rescene.Props.create_missing_removed",
    "Rescene.Props.create_compressed_removed",
    "Rescene.Props.create_damaged_left",
    "Rescene.Props.create_existing_lost",
    "Rescene.Props.gone_removed",
    "Rescene.Props.bad_left",
    "Rescene.Props.made_written"
   ],
   "note": "False in part: a truncated SRR is left when a volume is damaged (create_damaged_left), and an existing SRR that may be overwritten is lost when a volume is missing (create_existing_lost)."
  },
  {
   "property": "C73",
   "status": "partial",
   "theorems": [
    "Rescene.Props.verify_status",
    "Rescene.Props.verify_sound",
    "Rescene.Props.verify_complete",
    "Rescene.Props.verify_crc_zero"
   ],
   "note": "A file whose checksum is 0 is not looked at, so that it can be missing without a word (verify_crc_zero)."
  },
  {
   "property": "C74",
   "status": "partial",
   "theorems": [
    "Rescene.Props.srr_declined",
    "Rescene.Props.srr_leave",
    "Rescene.Props.srr_made",
    "Rescene.Props.srr_never_partial",
    "Rescene.Props.srr_others_untouched",
    "Rescene.Props.srr_success_sound",
    "Rescene.Props.srr_killed",
    "Rescene.Props.srr_uncaught",
    "Rescene.Props.srr_target_default",
    "Rescene.Props.srr_target_given",
    "Rescene.Props.srr_target_folder",
    "Rescene.Props.srr_target_parent",
    "Rescene.Props.srr_example",
    "Rescene.Props.srr_existing_lost",
    "Rescene.Props.srr_lost_example",
    "Rescene.Props.srr_temp_left",
    "Rescene.Props.srr_temp_example"
   ],
   "note": "There is never a part of an SRR at its place. But an existing SRR is deleted when creating the new one fails (srr_existing_lost), and the temporary file can be left (srr_temp_left)."
  },
  {
   "property": "C75",
   "status": "partial",
   "theorems": [
    "Rescene.Props.missed_video",
    "Rescene.Props.missed_flac",
    "Rescene.Props.missed_mkv",
    "Rescene.Props.missed_start",
    "Rescene.Props.avi_check_refused",
    "Rescene.Props.avi_search_refused",
    "Rescene.Props.mp4_check_refused",
    "Rescene.Props.mp4_search_refused",
    "Rescene.Props.wmv_check_refused",
    "Rescene.Props.wmv_search_refused",
    "Rescene.Props.mkv_check_refused",
    "Rescene.Props.mkv_search_refused",
    "Rescene.Props.flac_check_refused",
    "Rescene.Props.flac_search_refused",
    "Rescene.Props.mp3_check_refused",
    "Rescene.Props.mp3_search_refused",
    "Rescene.Props.stream_check_refused",
    "Rescene.Props.stream_search_refused",
    "Rescene.Props.stream_check_occurs",
    "Rescene.Props.mp3_find_other",
    "Rescene.Props.check_uses_movie",
    "Rescene.Props.check_kind_refused",
    "Rescene.Props.check_stream_skipped",
    "Rescene.Props.check_vob_rar_skipped"
   ],
   "note": "Proved for each format for the steps of creating and rebuilding, and for the choice of the movie in verify_main. Not the whole property: a .vob sample that is a RAR volume is not checked at all (check_vob_rar_skipped), and a stream sample is not searched for in a movie of another known format (check_stream_skipped)."
  },
  {
   "property": "C76",
   "status": "partial",
   "theorems": [
    "Rescene.Props.stream_srs_kind",
    "Rescene.Props.avi_srs_kind",
    "Rescene.Props.mkv_srs_kind",
    "Rescene.Props.wmv_srs_kind",
    "Rescene.Props.mp4_srs_kind",
    "Rescene.Props.flac_srs_kind",
    "Rescene.Props.mp3_srs_kind",
    "Rescene.Props.restore_same_kind",
    "Rescene.Props.restore_uses_reader_partial",
    "Rescene.Props.restore_mp3_partial",
    "Rescene.Props.stream_taken_for_mp3",
    "Rescene.Props.tagged_music_in_rar",
    "Rescene.Props.riff_by_name"
   ],
   "note": "The SRS is recognised for all seven formats. Missing: MP4 files that start with media data of exactly 862416949 bytes (with other sizes such a file is not recognised as MP4), MP3 files with ID3v2 tags in front and no sound data behind them. What is recognised depends on the name or on chance bytes in some cases (the last three theorems)."
  },
  {
   "property": "C77",
   "status": "partial",
   "theorems": [
    "Rescene.Props.restore_once",
    "Rescene.Props.restore_honest",
    "Rescene.Props.mkv_cut_restored_partial",
    "Rescene.Props.retry_tries_choices",
    "Rescene.Props.retry_exhaustive",
    "Rescene.Props.guesses_near",
    "Rescene.Props.further_offsets",
    "Rescene.Props.live_write",
    "Rescene.Props.rebuild_positions",
    "Rescene.Props.retry_all_short",
    "Rescene.Props.retry_finds_violated"
   ],
   "note": "Proved for all inputs: one attempt for each combination, none left out, honest result. Violated: not each place that was found is tried, and when all tracks have further places there is a ValueError instead of a second attempt."
  },
  {
   "property": "C78",
   "status": "partial",
   "theorems": [
    "Rescene.Props.search_sound",
    "Rescene.Props.search_complete_partial",
    "Rescene.Props.search_complete_violated",
    "Rescene.Props.name_never",
    "Rescene.Props.scene_release",
    "Rescene.Props.folders_release_partial",
    "Rescene.Props.release_has",
    "Rescene.Props.disk_names",
    "Rescene.Props.cd_title_violated",
    "Rescene.Props.stray_nfo_splits_violated",
    "Rescene.Props.cd_titles_split_violated"
   ],
   "note": "The search is sound for all trees, and complete unless the path of a folder contains that of a release it is not in: such a folder is not looked at (search_complete_violated). The pattern for disks with titles never matches (cd_title_violated)."
  },
  {
   "property": "C79",
   "status": "partial",
   "theorems": [
    "Rescene.Props.main_sfvs",
    "Rescene.Props.main_root_kept",
    "Rescene.Props.main_single",
    "Rescene.Props.extra_sfvs",
    "Rescene.Props.start_rars",
    "Rescene.Props.start_rars_old",
    "Rescene.Props.main_subs_letters_violated"
   ],
   "note": "Proved for all releases what is chosen. Violated: an SFV of the release itself whose name contains the letters subs is dropped when there is another SFV (main_subs_letters_violated)."
  },
  {
   "property": "C80",
   "status": "partial",
   "theorems": [
    "Rescene.Props.srs_distinct_partial",
    "Rescene.Props.srs_name",
    "Rescene.Props.sfvs_placed",
    "Rescene.Props.music_order",
    "Rescene.Props.music_bad",
    "Rescene.Props.moved_above",
    "Rescene.Props.skip_partial",
    "Rescene.Props.stored_all_partial",
    "Rescene.Props.stored_music_partial",
    "Rescene.Props.nfo_kept",
    "Rescene.Props.skip_both_violated",
    "Rescene.Props.srs_apart_violated",
    "Rescene.Props.srs_longer_violated",
    "Rescene.Props.nfo_part_violated"
   ],
   "note": "Proved for lists of different files that are not both named and matched as files to skip; such a file stops the program with ValueError (skip_both_violated). SRS names are different unless samples of the same name do not follow each other or one sample is named like another with an extension added (srs_apart_violated, srs_longer_violated). Copying the files and finding samples and proofs are the subject of C89 and C95."
  },
  {
   "property": "C81",
   "status": "partial",
   "theorems": [
    "Rescene.Props.stream_commands_partial",
    "Rescene.Props.avi_commands_partial",
    "Rescene.Props.mp4_commands_partial",
    "Rescene.Props.wmv_commands_partial",
    "Rescene.Props.mkv_commands_partial",
    "Rescene.Props.flac_commands_partial",
    "Rescene.Props.mp3_commands_partial",
    "Rescene.Props.stream_commands_violated"
   ],
   "note": "One theorem for each format, for files of the form that the properties of the format assume (C35, C38, C39, C62, C64, C66, C68), names of SRS files that do not end in .mp3, movies that are not RAR volumes and, with -c, tracks that all have data. False without that: stream_commands_violated and the violations of those properties."
  },
  {
   "property": "C82",
   "status": "partial",
   "theorems": [
    "Rescene.Props.auto_srr_made",
    "Rescene.Props.auto_never_partial",
    "Rescene.Props.auto_success_sound",
    "Rescene.Props.auto_failed_keeps",
    "Rescene.Props.auto_others_untouched",
    "Rescene.Props.auto_srr_rebuilds",
    "Rescene.Props.auto_create_failed",
    "Rescene.Props.auto_temp_left",
    "Rescene.Props.auto_interrupt_example",
    "Rescene.Props.auto_interrupt_left"
   ],
   "note": "All but the last clause, for releases whose volumes are found under their names and can be rebuilt (as in C01), when a set with no volumes has an application name that is not shorter than 11 bytes; the work in the working folder is any program that leaves the SRR and its temporary file alone; auto_failed_keeps is for faults that do not hit the renaming. The last clause is false: auto_temp_left and auto_interrupt_example show that the temporary file is left."
  },
  {
   "property": "C83",
   "status": "proved",
   "theorems": [
    "Rescene.Props.damage_changes_crc",
    "Rescene.Props.two_bits_noticed",
    "Rescene.Props.two_bits_missed",
    "Rescene.Props.calculated_differs",
    "Rescene.Props.verify_notices_damage",
    "Rescene.Props.rebuilt_crc",
    "Rescene.Props.sample_notices_damage"
   ],
   "note": "For all files and all damage of the three kinds. two_bits_missed shows that the limit of 2^32 - 1 bits is sharp."
  },
  {
   "property": "C84",
   "status": "proved",
   "theorems": [
    "Rescene.Props.bitflip_search",
    "Rescene.Props.bitflip_whole",
    "Rescene.Props.bitflip_sound",
    "Rescene.Props.bit_repaired",
    "Rescene.Props.switch_repaired",
    "Rescene.Props.byte_repaired",
    "Rescene.Props.byte_wrong"
   ],
   "note": "For ranges that are not reversed and do not start behind the file. byte_wrong shows that the limit of --byte is sharp."
  },
  {
   "property": "C85",
   "status": "partial",
   "theorems": [
    "Rescene.Props.make_ended",
    "Rescene.Props.status_zero",
    "Rescene.Props.call_returns",
    "Rescene.Props.answers_iff",
    "Rescene.Props.stops_iff",
    "Rescene.Props.not_located_answers",
    "Rescene.Props.sample_expected_partial",
    "Rescene.Props.samples_expected_partial",
    "Rescene.Props.run_expected_partial",
    "Rescene.Props.no_fpcalc_aborts",
    "Rescene.Props.unknown_stops",
    "Rescene.Props.big_stops",
    "Rescene.Props.incomplete_stops",
    "Rescene.Props.no_tracks_stops",
    "Rescene.Props.format_stops",
    "Rescene.Props.fingerprint_stops",
    "Rescene.Props.sample_stops_release",
    "Rescene.Props.check_stops_sample",
    "Rescene.Props.sample_stops_run"
   ],
   "note": "False for most failures: srs.py calls exit with two arguments, so that a sample that is empty, unknown, cut off, without tracks or too big, and a main file of another format, end pyrescene with a TypeError. Proved for the failures that are reported as ValueError."
  },
  {
   "property": "C86",
   "status": "partial",
   "theorems": [
    "Rescene.Props.tag_all_partial",
    "Rescene.Props.fixed_rebuilt",
    "Rescene.Props.join_fix_case_sound",
    "Rescene.Props.join_fix_case_exact",
    "Rescene.Props.join_fix_case_complete_partial",
    "Rescene.Props.video_stops",
    "Rescene.Props.retag_never_succeeds",
    "Rescene.Props.twin_left",
    "Rescene.Props.join_fix_case_twins"
   ],
   "note": "False: the exit status is never 0, an SRS of a video ends the run, of SRS files of the same name only the first is used. Proved for SRS files of music with names of their own and for trees without names that differ in case only."
  },
  {
   "property": "C87",
   "status": "partial",
   "theorems": [
    "Rescene.Props.version_sound",
    "Rescene.Props.accepts_iff",
    "Rescene.Props.arglist_command",
    "Rescene.Props.grabPiece_spec",
    "Rescene.Props.search_first",
    "Rescene.Props.search_exhaustive_partial",
    "Rescene.Props.compressed_size",
    "Rescene.Props.compressed_ok",
    "Rescene.Props.compressed_again",
    "Rescene.Props.single_part_unchecked",
    "Rescene.Props.old_stops",
    "Rescene.Props.more_only_first",
    "Rescene.Props.more_not_found",
    "Rescene.Props.unknown_before_stops"
   ],
   "note": "Sound for all repositories and executables, and exhaustive for the file alone. False: of a file in one part the packed data is not looked at (single_part_unchecked), a file of RAR 2.0 raises UnboundLocalError (old_stops), the file behind is only added for the first executable (more_not_found), and a directory before the file ends the search with KeyError (unknown_before_stops)."
  },
  {
   "property": "C88",
   "status": "partial",
   "theorems": [
    "Rescene.Props.set_of_parts",
    "Rescene.Props.set_of_old",
    "Rescene.Props.set_blocks",
    "Rescene.Props.plain_plan",
    "Rescene.Props.solid_plan_partial",
    "Rescene.Props.set_new_size",
    "Rescene.Props.second_method_size",
    "Rescene.Props.second_method_exhaustive",
    "Rescene.Props.data_first_partial",
    "Rescene.Props.solid_split_fails",
    "Rescene.Props.solid_split_missed",
    "Rescene.Props.solid_unknown_first",
    "Rescene.Props.set_interleaved",
    "Rescene.Props.data_stale"
   ],
   "note": "Proved for sets whose volumes follow each other and files in one part. False: a split file of a solid set is never rebuilt (solid_split_fails), a solid set whose first file is split is taken for one that is not solid (solid_split_missed), parts behind volumes of another set are left out (set_interleaved), and a file of the name of an earlier one gets the data of that (data_stale)."
  },
  {
   "property": "C89",
   "status": "partial",
   "theorems": [
    "Rescene.Props.files_found",
    "Rescene.Props.videos_found",
    "Rescene.Props.samples",
    "Rescene.Props.music",
    "Rescene.Props.image_wanted",
    "Rescene.Props.rar_wanted",
    "Rescene.Props.proofs_partial",
    "Rescene.Props.proofs_once",
    "Rescene.Props.proofs_end",
    "Rescene.Props.sample_in_parent",
    "Rescene.Props.capitals_missed",
    "Rescene.Props.parent_words",
    "Rescene.Props.ts_missed"
   ],
   "note": "Samples are proved for all trees. False for images whose names have capitals (capitals_missed), for releases below a folder with sample or proof in its name (sample_in_parent, parent_words) and for music videos with the extension .ts (ts_missed)."
  },
  {
   "property": "C90",
   "status": "partial",
   "theorems": [
    "Rescene.Props.image_size_ends",
    "Rescene.Props.jpeg_step_forward",
    "Rescene.Props.not_frame_iff",
    "Rescene.Props.jpeg_size",
    "Rescene.Props.profile_kind",
    "Rescene.Props.kind_only",
    "Rescene.Props.png_size",
    "Rescene.Props.gif_size",
    "Rescene.Props.site_cover_iff",
    "Rescene.Props.site_cover_ends",
    "Rescene.Props.dqt_unknown"
   ],
   "note": "False for JPEG files that start with a quantization table: test_jpeg compares bytes with text (dqt_unknown)."
  },
  {
   "property": "C91",
   "status": "partial",
   "theorems": [
    "Rescene.Props.free_dir_new",
    "Rescene.Props.subs_mirror",
    "Rescene.Props.subs_names_partial",
    "Rescene.Props.sub_rars",
    "Rescene.Props.sub_skipped",
    "Rescene.Props.subs_languages",
    "Rescene.Props.idx_files",
    "Rescene.Props.lines_spec",
    "Rescene.Props.subs_stored",
    "Rescene.Props.sub_name_ends",
    "Rescene.Props.subs_fail_together",
    "Rescene.Props.subs_collide",
    "Rescene.Props.languages_of_before",
    "Rescene.Props.skip_by_end"
   ],
   "note": "Proved when folders can be made. False: names that differ in the last four characters only give one SRR (subs_collide), the languages of earlier SFV files are stored again (languages_of_before), one archive without SRR takes away the others of its SFV file (subs_fail_together), and a stored RAR file whose name only ends like that of the set skips it (skip_by_end)."
  },
  {
   "property": "C92",
   "status": "partial",
   "theorems": [
    "Rescene.Props.srr_commands",
    "Rescene.Props.main_extract",
    "Rescene.Props.main_regex_wrong",
    "Rescene.Props.main_reads",
    "Rescene.Props.main_verify",
    "Rescene.Props.main_rebuild",
    "Rescene.Props.main_wrong",
    "Rescene.Props.hints_read",
    "Rescene.Props.hint_wrong",
    "Rescene.Props.wrong_volume_ok",
    "Rescene.Props.refused_ok",
    "Rescene.Props.no_rars_ok",
    "Rescene.Props.only_first",
    "Rescene.Props.capitals_created"
   ],
   "note": "False: the status is 0 when a volume is wrong (wrong_volume_ok), when the user does not want to overwrite one (refused_ok) and when there are no RAR executables (no_rars_ok); only the first SRR is used (only_first); .SRR in capitals is accepted but not treated as an SRR (capitals_created). All other clauses are proved; srr_commands under the conditions of C10 and C69."
  },
  {
   "property": "C93",
   "status": "partial",
   "theorems": [
    "Rescene.Props.sort_match_partial",
    "Rescene.Props.image_iff_partial",
    "Rescene.Props.noproof_partial",
    "Rescene.Props.sort_damaged",
    "Rescene.Props.sort_lists",
    "Rescene.Props.sort_moves_partial",
    "Rescene.Props.nfos_never",
    "Rescene.Props.nfos_unlisted",
    "Rescene.Props.jpeg_unlisted",
    "Rescene.Props.first_image_counts",
    "Rescene.Props.dirfix_stays",
    "Rescene.Props.sort_overwrites",
    "Rescene.Props.base_of",
    "Rescene.Props.multiple_iff_partial",
    "Rescene.Props.multiple_listed_partial",
    "Rescene.Props.multiple_numbers",
    "Rescene.Props.multiple_unlisted"
   ],
   "note": "False: two NFO files are never noticed (nfos_never), .jpeg and capitals are no images (jpeg_unlisted), with -p only the first image counts (first_image_counts), dirfixes are not moved (dirfix_stays), and a file of the same name in the folder is overwritten (sort_overwrites). Proved for the other options and for names that are new in the folder. -m lists what has more archived files than archives (multiple_iff_partial), so an archive of two files is not listed when another one has no file of its own (multiple_unlisted), and nothing with a volume like x.001 is ever listed (multiple_numbers)."
  },
  {
   "property": "C94",
   "status": "partial",
   "theorems": [
    "Rescene.Props.windows_tag",
    "Rescene.Props.linux_tag",
    "Rescene.Props.exe_iff",
    "Rescene.Props.repo_exact",
    "Rescene.Props.repo_recent",
    "Rescene.Props.repo_order",
    "Rescene.Props.stored_loaded",
    "Rescene.Props.prep_partial",
    "Rescene.Props.bits_lost",
    "Rescene.Props.text_loaded",
    "Rescene.Props.code_stops"
   ],
   "note": "False: the 32 and 64 bit archives of a version get the same name and the last one replaces the first (bits_lost), files of any kind whose names begin like an executable are taken for one (text_loaded), and an exit code of UnRAR without a text ends the work on all archives (code_stops). Proved for the rest: what is stored and found when no two archives have the same date and version."
  },
  {
   "property": "C95",
   "status": "partial",
   "theorems": [
    "Rescene.Props.extras_partial",
    "Rescene.Props.extras_once",
    "Rescene.Props.extras_copied",
    "Rescene.Props.copy_one",
    "Rescene.Props.copies",
    "Rescene.Props.copied_name",
    "Rescene.Props.srs_copied",
    "Rescene.Props.fix_names",
    "Rescene.Props.fix_stored",
    "Rescene.Props.fix_others",
    "Rescene.Props.case_lost",
    "Rescene.Props.nfo_skipped",
    "Rescene.Props.fix_of_subs"
   ],
   "note": "False: of two files that differ in case only one is copied twice and the other lost (case_lost), an NFO file of eight bytes called o.nfo or .nfo is not stored (nfo_skipped), and archives of fixes of subtitles, samples and archives are stored when the name says .FIX or .FiX (fix_of_subs). Proved for the other files of releases in which no two files of a folder differ in case only."
  },
  {
   "property": "C96",
   "status": "partial",
   "theorems": [
    "Rescene.Props.fh_as_disk_partial",
    "Rescene.Props.fh_written",
    "Rescene.Props.fh_failed",
    "Rescene.Props.fh_complete",
    "Rescene.Props.fh_capitals",
    "Rescene.Props.fh_missing",
    "Rescene.Props.fh_both_capitals",
    "Rescene.Props.fh_existing_lost",
    "Rescene.Props.fh_bare_name",
    "Rescene.Props.fh_stat_ignored",
    "Rescene.Props.fh_size_trusted",
    "Rescene.Props.fh_stored_skipped"
   ],
   "note": "False: a volume is not found when both names have capitals (fh_both_capitals), a failure also removes the SRR that was there before (fh_existing_lost), an SRR without a folder in its name cannot be made (fh_bare_name), stat=False does not switch off the test of the last segments (fh_stat_ignored), and a wrong size in a post damages the SRR (fh_size_trusted). Proved for names in the same case in fh_as_disk_partial, and with other capitals in fh_written."
  },
  {
   "property": "C97",
   "status": "partial",
   "theorems": [
    "Rescene.Props.handle_as_file_partial",
    "Rescene.Props.read_whole",
    "Rescene.Props.read_exact_partial",
    "Rescene.Props.seek_bounds",
    "Rescene.Props.straddle_wrong",
    "Rescene.Props.between_short",
    "Rescene.Props.magic_shifts",
    "Rescene.Props.past_end"
   ],
   "note": "False with the saving of traffic that is on by default: a part that was downloaded incompletely is taken as it is when later reads go on into the next part (straddle_wrong), and the parts between the first and the last of a read of a RAR file are cut (between_short). Also false: after a seek in a RAR file to a place where no block starts other bytes can be given (magic_shifts), and reading more than is left is an error (past_end). Proved: with complete parts every row of uses gives what the plain file gives (RAR files: when the file begins with its marker and is read from the starts of blocks), whole files other than RAR files always, and any single read when no part that ends inside its range is incomplete."
  },
  {
   "property": "C98",
   "status": "partial",
   "theorems": [
    "Rescene.Props.parse_quoted",
    "Rescene.Props.parse_plain",
    "Rescene.Props.nzb_versions",
    "Rescene.Props.nzb_tried",
    "Rescene.Props.nzb_sfvs",
    "Rescene.Props.sfv_order_partial",
    "Rescene.Props.nzb_stored",
    "Rescene.Props.nzb_stored_order",
    "Rescene.Props.parse_yenc",
    "Rescene.Props.sfv_stays",
    "Rescene.Props.stored_twice",
    "Rescene.Props.capitals_differ"
   ],
   "note": "False: in the usual subject without quotes the word yEnc in front of the counter is taken for the name (parse_yenc), an SFV file of a sample stays where it is when it follows another one that is moved (sfv_stays), a stored file that was posted twice is stored twice, also when one is incomplete (stored_twice), and capitals decide what is done with images, NFO files and SFV files of subtitles (capitals_differ). Proved: the rest, and the order of SFV files when no two that are moved follow each other."
  },
  {
   "property": "C99",
   "status": "partial",
   "theorems": [
    "Rescene.Props.srs_plain",
    "Rescene.Props.srs_output",
    "Rescene.Props.srs_named",
    "Rescene.Props.srs_d",
    "Rescene.Props.srs_dd",
    "Rescene.Props.srs_there",
    "Rescene.Props.srs_mind",
    "Rescene.Props.ddd_sample_name",
    "Rescene.Props.bare_refused"
   ],
   "note": "False: with --ddd the SRS has the name of the sample, not that of the folder (ddd_sample_name), and the name of an SRS file in the working folder, without a path, is refused (bare_refused). The rest is proved."
  },
  {
   "property": "C100",
   "status": "partial",
   "theorems": [
    "Rescene.Props.batch_partial",
    "Rescene.Props.batch_place",
    "Rescene.Props.batch_stops",
    "Rescene.Props.batch_collide",
    "Rescene.Props.batch_n"
   ],
   "note": "False: a video that is empty or not recognised ends the run (batch_stops), of two videos that differ in the extension one SRS is lost (batch_collide), and with -n no SRS is ever made (batch_n). Proved for the runs in which srs makes an SRS of each video or tells the reason in the agreed way, and no two videos of a folder differ only in the extension."
  },
  {
   "property": "C101",
   "status": "partial",
   "theorems": [
    "Rescene.Props.extract_srs_partial",
    "Rescene.Props.extract_srs_refused",
    "Rescene.Props.extract_srs_misses"
   ],
   "note": "extract_srs_partial: all stored SRS files whose names have no backslash, in an SRR that info accepts and whose stored names are usable as paths; of several with the same name the first. extract_srs_misses proves that SRS files with a backslash in the stored name, or with the extension in capitals, are left out with a success. Directories are not modelled."
  },
  {
   "property": "C102",
   "status": "partial",
   "theorems": [
    "Rescene.Props.merge_files",
    "Rescene.Props.merge_joined",
    "Rescene.Props.merge_named",
    "Rescene.Props.merge_unreadable",
    "Rescene.Props.merge_over_input",
    "Rescene.Props.merge_destroys"
   ],
   "note": "Proved when the output is none of the inputs (merge_files, merge_joined, merge_named), and that unreadable input changes nothing. merge_over_input and merge_destroys prove that an SRR that is both input and output loses the data of its stored files. Paths that are different names of one file are not modelled."
  },
  {
   "property": "C103",
   "status": "partial",
   "theorems": [
    "Rescene.Props.movie_kind_partial",
    "Rescene.Props.restore_from_rars_partial",
    "Rescene.Props.stream_from_rars_partial",
    "Rescene.Props.movie_in_capitals",
    "Rescene.Props.compressed_text",
    "Rescene.Props.mp4_other_file",
    "Rescene.Props.tagged_music_in_rar"
   ],
   "note": "For MKV, AVI, MP4, WMV and FLAC movies and MP3 files that start with a frame (movie_kind_partial, restore_from_rars_partial), and for streams with an SRS of a stream (stream_from_rars_partial). For MP4 only when every volume begins with the movie: mp4_other_file proves that otherwise the tracks are read from another file. movie_in_capitals, compressed_text and tagged_music_in_rar prove that movies with the extension in capitals behind another file, movies beside a compressed file and music with an ID3v2 tag are not recognised. A first part without data is excluded (C21)."
  },
  {
   "property": "C104",
   "status": "partial",
   "theorems": [
    "Rescene.Props.fp_parse",
    "Rescene.Props.fingerprint_tries",
    "Rescene.Props.fingerprint_runs",
    "Rescene.Props.fingerprint_files_partial",
    "Rescene.Props.fingerprint_clean_partial",
    "Rescene.Props.fingerprint_copy_stays",
    "Rescene.Props.copy_stays_example",
    "Rescene.Props.strip_tags_partial",
    "Rescene.Props.tags_example",
    "Rescene.Props.string_found",
    "Rescene.Props.string_missing",
    "Rescene.Props.string_start_partial",
    "Rescene.Props.string_start",
    "Rescene.Props.string_no_ff",
    "Rescene.Props.string_start_wrong",
    "Rescene.Props.string_too_early",
    "Rescene.Props.string_any_ff"
   ],
   "note": "What counts as output, the order of the attempts and the search for the strings are proved in full. The data without tags is proved for tagged MP3 files whose sound starts with a frame. No temporary file is left after a success, and with ASCII names never; fingerprint_copy_stays proves that the copy of a file with another name stays behind whenever there is no fingerprint. string_start, string_start_wrong, string_too_early and string_any_ff prove that the third attempt does not start at the last frame before the string: the sign of the offset is wrong, it always fails when the string is within the first 256 bytes, and any byte FF counts as a frame."
  },
  {
   "property": "C105",
   "status": "partial",
   "theorems": [
    "Rescene.Props.size_lists",
    "Rescene.Props.size_stops",
    "Rescene.Props.bad_lists",
    "Rescene.Props.bad_lists_partial",
    "Rescene.Props.bad_run",
    "Rescene.Props.bad_stops",
    "Rescene.Props.bad_backslash",
    "Rescene.Props.bad_same_name",
    "Rescene.Props.stream_unchecked",
    "Rescene.Props.stream_checked",
    "Rescene.Props.stream_start_listed",
    "Rescene.Props.avi_unchecked",
    "Rescene.Props.mp4_unchecked",
    "Rescene.Props.mkv_unchecked",
    "Rescene.Props.avi_checked",
    "Rescene.Props.mp4_checked",
    "Rescene.Props.mkv_checked"
   ],
   "note": "size_lists and bad_lists say exactly what is listed when all SRS files can be read. size_stops and bad_stops prove that one short SRS file ends the run, so that nothing after it is listed, and that srs_bad.py then leaves the stored files in the temporary folder. bad_same_name proves that an SRS with the name of one in another folder is judged by that one, bad_backslash that a backslash in a name ends the run, and stream_start_listed that a stream from the very start of the movie is listed although it was found. avi_checked, mp4_checked and mkv_checked prove for a movie with any contents that an SRS made with it has a place other than 0 for every track, so that it is not listed. SRS files with the extension in capitals are not looked at by srs_bad.py. M2TS is not modelled."
  },
  {
   "property": "C106",
   "status": "partial",
   "theorems": [
    "Rescene.Props.second_pick",
    "Rescene.Props.second_serves",
    "Rescene.Props.second_used",
    "Rescene.Props.second_not_used",
    "Rescene.Props.second_stays",
    "Rescene.Props.second_other_set",
    "Rescene.Props.second_twice",
    "Rescene.Props.second_once_partial",
    "Rescene.Props.second_leftover"
   ],
   "note": "Proved: the choice of the settings, the command line, the size of what is served and when the method is used. False: a file in several parts is given several times (second_twice; second_once_partial is for sets without such files), after a failure the files of the earlier release are packed again with the next one (second_leftover), and after a success no later file is searched for, so that files of another set, which are not in the archive, are not rebuilt although they could be (second_other_set). The volume size is that of the first volume of the SRR, not of the set (C51). What rar makes is an argument."
  },
  {
   "property": "C107",
   "status": "partial",
   "theorems": [
    "Rescene.Props.compressed_rebuilt_partial",
    "Rescene.Props.compressed_mixed_rebuilt_partial",
    "Rescene.Props.compressed_several_rebuilt_partial",
    "Rescene.Props.several_made",
    "Rescene.Props.later_found",
    "Rescene.Props.mixed_made",
    "Rescene.Props.first_made",
    "Rescene.Props.made_found",
    "Rescene.Props.single_wrong"
   ],
   "note": "compressed_rebuilt_partial: creating, then reconstructing, gives the volumes of a set with one compressed file, in any number of parts and not solid, when an executable made it and no other that passes the test packs the file differently. Without the last condition it is false: single_wrong proves that a file in one part is taken from any executable that gives the right size, so that a wrong volume is written without a word although the right executable is at hand. compressed_mixed_rebuilt_partial is the same for a set that also has any number of stored files before and behind the compressed one. compressed_several_rebuilt_partial is for sets of any number of compressed and stored files, not solid, in which every executable that can be taken for the one that made the first compressed file made the others; several_made says what is packed for them. Missing: sets whose files were made by different executables or with the file in front of them (C87, C106), and solid sets (C88)."
  },
  {
   "property": "C108",
   "status": "partial",
   "theorems": [
    "Rescene.Props.create_reports_partial",
    "Rescene.Props.other_files_reported_partial",
    "Rescene.Props.file_reported",
    "Rescene.Props.part_reported",
    "Rescene.Props.nothing_reported",
    "Rescene.Props.damaged_reported",
    "Rescene.Props.one_volume_false_report"
   ],
   "note": "Reconstruction of a whole set reports exactly the wrong checksums (create_reports_partial), also when the files on disk are others than the archived ones (other_files_reported_partial); what these are is said by file_reported, part_reported and nothing_reported, and damaged_reported adds that damage of a file (as in C83) is always reported. When only some volumes are asked for it is false: one_volume_false_report proves that a right file is reported. The last part of a compressed file is not checked by the code (C107)."
  },
  {
   "property": "C109",
   "status": "partial",
   "theorems": [
    "Rescene.Props.one_volume_partial",
    "Rescene.Props.one_volume_of_file",
    "Rescene.Props.subset_partial",
    "Rescene.Props.second_file_wrong",
    "Rescene.Props.second_set_wrong",
    "Rescene.Props.directory_alone_fails",
    "Rescene.Props.subset_middle_fails",
    "Rescene.Props.several_asked_wrong"
   ],
   "note": "one_volume_of_file: any volume of a set with one stored file, one part of it in each volume, comes back alone. one_volume_partial: in general, when each part of the volume is at the same place in its file, behind what the volumes before have of the file they end with. subset_partial: the volumes of a set asked for with a star come back, with the right reports, when they do not begin in the middle of a file. Otherwise it is false: second_file_wrong and second_set_wrong prove that wrong data is written for a second file in the volume and for the first volume of a second set; directory_alone_fails and subset_middle_fails that IndexError and AssertionError are raised. several_asked_wrong: of two volumes with the name end asked for, the second one is wrong."
  },
  {
   "property": "C110",
   "status": "partial",
   "theorems": [
    "Rescene.Props.rebuilt_same",
    "Rescene.Props.edits_rebuild_same",
    "Rescene.Props.merged_rebuild_same_partial",
    "Rescene.Props.merged_same_file_wrong",
    "Rescene.Props.merged_twice_wrong"
   ],
   "note": "edits_rebuild_same is for all histories of edits that leave at least the 20 bytes that the reader asks for (C09). merged_rebuild_same_partial is for SRR files that start with a volume of another name than the last one before and whose first archived file has another name than the last one before. Without the last condition it is false: merged_same_file_wrong proves that a volume of the second SRR gets zeros for the data of a file of the same name. merged_twice_wrong proves that the names of the volumes matter, too: from an SRR merged with itself the volume is written twice into one file."
  },
  {
   "property": "C111",
   "status": "proved",
   "theorems": [
    "Rescene.Props.history_files",
    "Rescene.Props.history_others",
    "Rescene.Props.history_extracted",
    "Rescene.Props.edit_storedIn"
   ],
   "note": "For histories that leave at least the 20 bytes that the reader asks for (C09); a history that gets below them cannot go on (edit_short). The specification works on two lists of names and contents (Spec/History.lean). history_extracted gives the bytes of each file whose path is new and is not the path of an earlier one; the names are assumed to be those that opath accepts, others make the extraction fail (C13, C14)."
  },
  {
   "property": "C112",
   "status": "proved",
   "theorems": [
    "Rescene.Props.edited_as_created",
    "Rescene.Props.edited_reconstruct",
    "Rescene.Props.edited_pieces"
   ],
   "note": "Which files result is said by the operations on lists of C111 (Spec/History.lean). For the second creation the disk may be another one, as long as it gives the same volumes and hashes: creating without stored files gives the same on both. No length is assumed: a history that gets below the 20 bytes of C09 ends there, and its last SRR is right, too."
  },
  {
   "property": "C113",
   "status": "proved",
   "theorems": [
    "Rescene.Props.history_as_created",
    "Rescene.Props.history_reconstruct",
    "Rescene.Props.history_unique",
    "Rescene.Props.history_written",
    "Rescene.Props.history_groups"
   ],
   "note": "Which histories there are is said by the inductive relation MadeSrr (Spec/MadeSrr.lean), which builds on EditedBy of C111. history_reconstruct is for SRR files with and without OSO hashes; the comparison with a single creation is without them, since a merged SRR has them between the volumes and a created one behind them. The single creation is one with compressed = True, as some of the volumes may need it. Reconstruction has the conditions of C06: the volumes go to different places, so that a volume is not twice in the SRR (merged_twice_wrong of C110)."
  },
  {
   "property": "C114",
   "status": "partial",
   "theorems": [
    "Rescene.Props.history_hash",
    "Rescene.Props.history_hash_is",
    "Rescene.Props.history_all_extracted"
   ],
   "note": "For volumes of different base names in lower case (without that it is false: content_hash_ignores_volume of C15) and with recovery records whose sizes are given the usual way (UsualSize, as in C58). history_all_extracted has no condition on the volumes."
  },
  {
   "property": "C115",
   "status": "partial",
   "theorems": [
    "Rescene.Props.split_keeps_partial",
    "Rescene.Props.split_result",
    "Rescene.Props.split_overwrites",
    "Rescene.Props.split_loses",
    "Rescene.Props.split_loses_existing",
    "Rescene.Props.split_loses_nameless",
    "Rescene.Props.split_nothing_empty",
    "Rescene.Props.merge_all",
    "Rescene.Props.merge_alone",
    "Rescene.Props.merge_crash_partial",
    "Rescene.Props.merge_crash_loses",
    "Rescene.Props.rename_keeps_partial",
    "Rescene.Props.rename_moves_partial",
    "Rescene.Props.rename_loses"
   ],
   "note": "Splitting: proved when the files of the last release come together and it had no NZB; split_result says exactly what happens otherwise and split_overwrites that files are lost. Merging: proved, apart from being stopped between opening and writing. Renaming: proved when no two NZB files get the same name; otherwise one overwrites the other. How a release name is found in a subject is any function."
  },
  {
   "property": "C116",
   "status": "partial",
   "theorems": [
    "Rescene.Props.damaged_rebuilt",
    "Rescene.Props.salvaged_made",
    "Rescene.Props.salvaged_rebuilt",
    "Rescene.Props.salvaged_same",
    "Rescene.Props.damaged_type_dropped",
    "Rescene.Props.cut_volume_takes_next",
    "Rescene.Props.damaged_type_stored"
   ],
   "note": "The first half is proved in full (damaged_rebuilt), with and without OSO hashes. salvaged_rebuilt has it for SRR files that were edited and merged in any way afterwards, without OSO hashes. The second half is false: header checksums are not compared, so that a block whose type is damaged is left out of the rebuilt volume without an error (damaged_type_dropped); a volume cut off in the data of a comment is accepted and makes the next volume impossible to rebuild (cut_volume_takes_next); a block with the type of a stored file gives an SRR that can not be read (damaged_type_stored)."
  },
  {
   "property": "C117",
   "status": "proved",
   "theorems": [
    "Rescene.Props.ext_times_read",
    "Rescene.Props.ext_times_missing",
    "Rescene.Props.ext_times_cut",
    "Rescene.Props.file_times",
    "Rescene.Props.date_order",
    "Rescene.Props.newest_date",
    "Rescene.Props.first_tried"
   ],
   "note": "Seconds are exact numbers in the model; Python has them as floats. The order of the other executables is C94 and C55."
  },
  {
   "property": "C118",
   "status": "partial",
   "theorems": [
    "Rescene.Props.srs_asks",
    "Rescene.Props.srr_leave",
    "Rescene.Props.auto_asks",
    "Rescene.Props.auto_both",
    "Rescene.Props.tag_asks",
    "Rescene.Props.tag_track_asks_partial",
    "Rescene.Props.tag_no_forgotten",
    "Rescene.Props.srs_no_kept",
    "Rescene.Props.folder_unasked",
    "Rescene.Props.folder_there",
    "Rescene.Props.asks_until"
   ],
   "note": "False: retag.py does not pass -n to srs, so that tracks are replaced with -n (tag_no_forgotten); pyrescene.py makes the folder without asking, also with -n (folder_unasked). The rest is proved."
  },
  {
   "property": "C119",
   "status": "partial",
   "theorems": [
    "Rescene.Props.shared_list_kept_partial",
    "Rescene.Props.shared_list_after",
    "Rescene.Props.shared_list_leaks",
    "Rescene.Props.shared_list_twice"
   ],
   "note": "False: the SFV files of the input are appended to the list of the caller, so that they are stored in later SRR files too (shared_list_leaks) and twice when a call is repeated (shared_list_twice). Proved for calls without SFV files in the input; shared_list_after says what the list becomes otherwise."
  },
  {
   "property": "C120",
   "status": "partial",
   "theorems": [
    "Rescene.Props.quiet_adds_nothing",
    "Rescene.Props.quiet_always_fails",
    "Rescene.Props.quiet_skips_partial"
   ],
   "note": "False: with the option no file is ever added. A path has no attribute `name`, and an open file is no path for os.path.normpath, so that the call fails with AttributeError or TypeError (quiet_always_fails). Proved: all files stay as they are (quiet_adds_nothing) and stored files are skipped when each is given once (quiet_skips_partial)."
  },
  {
   "property": "C121",
   "status": "partial",
   "theorems": [
    "Rescene.Props.unrar_first",
    "Rescene.Props.unrar_known",
    "Rescene.Props.unrar_on_path_partial",
    "Rescene.Props.unrar_missing_raises",
    "Rescene.Props.unrar_folder_hides"
   ],
   "note": "False: on other systems than Windows a missing unrar raises TypeError (unrar_missing_raises); on Windows a folder with the name of the executable hides one in a later place (unrar_folder_hides). Proved for Windows when nothing but files has the name, and for other systems when unrar is on the search path."
  }
 ]
}