# Formal model of pyReScene: design

The model is written in Lean 4 (core, plus single Mathlib modules where noted)
under `lean/Verif`.  Property theorems live in `lean/Verif/Props/*.lean`; models
in `lean/Verif/Model/*.lean`; helper lemmas in `lean/Verif/Lemmas/*.lean`;
specifications that the theorems refer to in `lean/Verif/Spec/*.lean` or at the
top of the `Props` file.

## Conventions

* A Python `bytes` value is a `List UInt8`; an open file is its contents plus a
  position; a seek past the end is allowed and reading there returns nothing,
  as with a real file.
* A Python `str` is the list of its code points (`Str := List Nat`); UTF-8 and
  Latin-1 are modelled as functions, with UnicodeError as a result.
* Python integers are `Nat` (or `Int` where they can be negative); `struct.pack`
  raises `struct.error` outside the range, `struct.unpack_from` raises it when the
  buffer is too short.  Both are modelled with explicit errors.
* Exceptions are values: `Except Err α`.
* Loops become structural recursion, or take a fuel argument together with a
  theorem that the fuel is never exhausted.
* The file system is a map from paths to contents (`FS`).  Programs on it are
  sequences of actions; every action can fail and the process can be killed at
  every action (`Model/Files.lean`).
* Python 3 on POSIX.

## Plan per property

| id | model | proof |
|----|-------|-------|
| C01 | block builder and block parser, byte exact | case split on the guard, LE round trip lemmas |
| C02 | same | same |
| C03 | same | same |
| C04 | `RarReader._read` as a step function, `read_all` as a loop | induction over the loop, position strictly grows |
| C05 | reader applied to concatenated blocks | re-parse lemma per block, induction over the list |
| C06 | `create_srr`, `reconstruct`, `_repack` over an abstract RAR volume | per-block simulation, induction over blocks and volumes |
| C07 | `create_srr` | the SRR bytes are a function of the headers only |
| C08 | `add_stored_files` on bytes | refinement to an ordered list of blocks |
| C09 | `remove_stored_files` | same |
| C10 | `rename_stored_file`, `renameto` | same |
| C11 | step sequence of `add_stored_files` on a file system with a failure point | case analysis over failure points |
| C12 | `merge_srrs` | induction over inputs |
| C13 | `extract_files`, `_extract` over a file system map | induction over blocks |
| C14 | `os_file_name`, `joinpath` | list reasoning on split/join |
| C15 | `content_hash` (hash function abstract) | slices are a function of the RAR blocks; sort is order independent |
| C16 | size bookkeeping of `info` | invariant relating sums to the tiling theorem C04 |
| C17 | `_repack` loop | induction on remaining bytes |
| C18 | CRC-32 as a bit-level fold | fold over append |
| C19 | `crc32_combine` with its matrices | GF(2) linearity; loop invariant over the bits of the length |
| C20 | `_write_recovery_record` | fold invariant on parity accumulators |
| C21 | `RarStream` seek/read over volumes | refinement to a byte list with a position |
| C22 | `FakeFile` | same |
| C23 | `_osorg_hash` | modular arithmetic, fold |
| C24 | `parse_sfv_data` | induction over lines |
| C25 | `SfvEntry` and the line parser | string splitting lemmas |
| C26 | `SfvEntry.__lt__` | order laws, or a counterexample |
| C27 | `next_archive` | positional number arithmetic on digit strings |
| C28 | `is_rar`, `first_rars` | decision procedure vs. declarative definition |
| C29 | `joinpath` | split/join inverse |
| C30 | EBML varints | bit arithmetic |
| C31 | lacing decoder vs. encoder specification | induction over frames |
| C32 | ID3 sizes | bit arithmetic |
| C33 | FileData | LE round trip |
| C34 | TrackData | LE round trip |
| C35 | stream sample pipeline | composition of C33, C34, C36 |
| C36 | chunked search loops | loop invariant: no match starts before the window |
| C37 | RIFF reader, create, rebuild | induction over chunk list |
| C38 | FLAC reader, create, rebuild | induction over metadata blocks |
| C39 | MP3 block layout, create, rebuild | composition |
| C40 | MP4 atoms, chunk order | induction, sorting |
| C41 | EBML element tree | mutual induction |
| C42 | stream reader loop | expected to fail (size 0 block at offset 0): prove the negation, and a partial theorem |
| C43 | yEnc decoder (pure Python branch) | induction over escape sequences |
| C44 | `escape_glob` vs. a glob matcher | induction |
| C45 | thread count enumeration | measure argument |
| C46 | DOS time | bit fields |
| C47 | flag tests | finite table over all flags |
| C48 | `UnicodeFilename` | refinement to the declarative opcode semantics |
| C49 | remove/rename steps on a file system with a crash point | case analysis |
| C50 | retry loop over a failure history | induction |
| C51 | sums over volume sets | induction |
| C52 | `srs.py` main on a file system with faults; contents from the rebuild functions are an argument | case analysis over attempts and faults |
| C53 | path of the result | list reasoning on paths |
| C54 | SFV duplicates, `same_sfv` | induction over entries |
| C55 | repository of RAR executables | induction |
| C56 | `reconstruct` on a file system | invariant over the loop |
| C57 | `create_srr` checks | case analysis |
| C58 | `info` | simulation of the loop against the contents of the SRR |
| C59 | MP3 and FLAC readers | measure argument |
| C60 | as C52 | as C52 |
| C61 | as C52 | as C52 |
| C62 | AVI find, extract | two loop invariants over an annotated movie |
| C63 | loops over the atoms of an MP4 file | progress of the position; negation for zero sizes |
| C64 | MP4 find, extract | the cursors of a track in order; the first match is the place of the cut |
| C65 | loops over the elements of an MKV file | progress of the position, also for blocks of negative length |
| C66 | MKV find, extract | two loop invariants over the frames of each track |
| C67 | WMV reader, create, load, rebuild | induction over objects, packets and payloads; progress of the position |
| C68 | WMV find, extract | two loop invariants over the payloads of each stream |
| C69 | `_handle_sfv`, `capitalized_fn`, `create_srr` from its arguments | members and order of the sorted list; composition with C06 |
| C70 | `_handle_rar` with `next_archive` | induction over the volumes; the loop visits different names |
| C71 | `_store`, `relpath` | walking a relative path from the folder; composition with C20 |
| C72 | `create_srr` as a file system program | invariant of all steps: only the SRR path changes |
| C73 | `verify_extracted_files` | fold over the archived files; composition with C58 |
| C74 | the command `srr`, creation | sequences of programs; moments of each part |
| C75 | `verify_main`, the check after the search in `main` | the branch of each create and rebuild function after the search; witnesses that a search can fail |
| C76 | `file_type_info`, the choice of the class in `main` of srs.py | the first bytes of each kind of SRS are those of the sample or fixed marks |
| C77 | the offsets collected in `_extra_offsets_x265_bug`, `find_best_educated_guesses`, `check_tracks`, the files that stay open between attempts | the nested loops are one loop over all combinations; simulation of the search without further offsets by the one with them |
| C78 | `get_release_directories`, `is_release` and their patterns, on trees of names | induction on trees: the walk in order, with the state of the loop; the patterns by the texts they match |
| C79 | `remove_unwanted_sfvs`, `get_unwanted_sfvs`, `get_start_rar_files`; what SFV and RAR files contain is a parameter | the tests for one SFV file as one condition on names; the patterns by the texts they match |
| C80 | the lists in `generate_srr`: names of SRS files, the SFV files, sorting for music, moving, skipping | induction over the loops with the list as state; sorting is stable and sorted |
| C81 | the two commands of `srs` together | composing the choice of the format (C75, C76) with the theorems of the formats |
| C82 | `generate_srr` as a program of file accesses with faults; the work in the working folder is any program that stays away from the SRR | what create_srr, remove_stored_files and add_stored_files make is computed as entries; the moments of the program by cases on its steps |
| C83 | damage as a relation between files (`Spec.Damaged`); the CRC-32 over single bits | the checksum is linear; x has the order 2^32 - 1 modulo the polynomial (the powers at the largest proper divisors, by kernel evaluation of matrix powers) and 32 bits determine the register |
| C84 | bitflip.py's `precalculate`, `validate_table` and the loops, with their assertions | loop invariant: the checksums in front of and behind the part; uniqueness of the repair from the order of x and a table of the powers of x that the 255 bytes are, checked by the kernel |
| C85 | how srs.py's `main` ends: reports, handlers, the text of the error; pyrescene's loops over samples and releases | case analysis of the reports; a lemma on the end of a text with any file name in it; induction over samples and releases |
| C86 | retag.py on the model of the file system, with extraction from the SRR; `srs` is any change of the files that leaves the SRR and the SRS files alone | induction over the SRS files and over the parts of a path |
| C87 | the search over executables and thread counts; what an executable makes of a command line is any function | refinement to the first of a list of attempts, induction over both loops |
| C88 | the loop over the blocks of the SRR, the choice of what is compressed together, one more file of a solid set, the objects that are kept | induction over the blocks before, of and behind the set; decision logic |
| C89 | the walk over the tree, the choice of samples and proofs, the lists of words | the files of the walk are exactly those at a path of folder names, by induction over the tree; decision logic |
| C90 | the loop over the segments of a JPEG file, the headers of PNG and GIF files | every step goes forward; induction over the segments before the frame |
| C91 | archives as trees, the loops over the first volumes, the new folders, `languages.diz`, the loop over the SFV files | induction over the nesting; a pigeonhole for the new folder |
| C92 | the options of `srr`, the hints, the order of the cases, the exit status; creation is a parameter | case analysis; composition with the theorems on creation, reconstruction, extraction and verification |
| C93 | the reader as an iterator that can fail, the tests of srr_sort.py, `os.renames` | a general lemma on searching blocks; induction over the SRR files |
| C94 | the two patterns for names of archives with the ways they can match in order, the names of executables, sorting and trying them, the loop over the archives | parsing and formatting as round trips; induction over the archives with what each puts where |
| C95 | the lists of files to copy, `capitalized_fn` and `relpath` on paths, the files of the disk before and after, the patterns for names of fixes | induction over the files with what is copied; the languages of the patterns |
| C96 | handles with the results of all their downloads, the retries, the search for volumes, the SRR before and after | the retries of C50 for each volume; induction over volumes and blocks against the model of create_srr |
| C97 | the handle with its position, the parts on hand and the corrections for damaged RAR files, all seeks and reads | simulation by a plain file, induction over the uses; induction over the parts of a read |
| C98 | names in subjects, the versions of posted files, the choice and order of SFV files and of the files to store, refusals | induction over the posted files; invariant of the loop over a list that it changes; regular expressions by their words |
| C99 | the name and folder of a new SRS with all options | case analysis; texts split at the last slash |
| C100 | srs_batch.py: which files, the calls of srs, the output by folder and name | induction over the files with a frame for the names that are not touched |
| C101 | `srr_extract_srs.py` on `extract_files` and `info` | induction over the names with what each call may write as invariant; each call by C13 |
| C102 | `srr_merge.py`, and `merge_srrs` on files with what of the output is on the disk at each read | induction over inputs and stored files; contents by C12 |
| C103 | `file_type_info` and `srs x.srs movie` on files, with the archived file that is chosen and what each reader opens | the stream of C21 as a file; case analysis of the markers; negations by witnesses |
| C104 | `fingerprint` with the file system, what fpcalc prints and `mkstemp` as arguments | induction over the attempts left; the search by induction over the batches; refinement to a list of attempts; negations in general and by witnesses |
| C105 | the two tools on a file system, with the readers of all kinds of SRS files | induction over the files; which of several stored files of one name stays in the folder, from the theorem about extraction (C13); negations in general and by a witness |
| C106 | the choice of settings, the list of files and the fallback of the factory; `rar` is an argument as in C87 | induction over the known files; the command line by the theorem of C87; negations in general and by witnesses |
| C107 | the search of C87 put in as the packer of `reconstruct` | composition of the theorem about creating and reconstructing (C01) with those of C87; the negation by running the model on a set |
| C108 | the reports of `reconstruct` | an invariant added to the induction of C06: the running CRC is that of the packed data of the file so far; C07 gives the same SRR for other packed data, C83 that damage changes the CRC |
| C109 | `reconstruct` with a part of the volumes asked for | the induction of C06 for the blocks of a volume, with the place to read from as invariant, and one over the blocks of volumes left out; the negations by running the model on sets |
| C110 | the edits of C08 to C10, `merge_srrs` and `reconstruct` together | reconstruction as a function of the entries that are not stored files; induction over the history of edits; a simulation between going on and starting anew for merged files |
| C111 | the edits of C08 to C10 and `extract_files` together | refinement of the three edits to operations on lists of names and contents; induction over the history; C13 on the result |
| C112 | `create_srr`, the edits of C08 to C10 and `reconstruct` together | the shape header, stored files, rest is an invariant of the edits; induction over the history; C06 on the result |
| C113 | `create_srr`, the edits of C08 to C10, `merge_srrs` and `reconstruct` together | induction over the history: the SRR is written from the pieces of its files and volumes; that a volume is accepted does not depend on the others |
| C114 | the histories of C113, `content_hash` and `extract_files` | the volumes of an SRR as a function of its pieces; C15 and C111 on the result |
| C115 | the loops of nzb_split.py, nzb_merge.py (with the folder after each change) and nzb_rename.py | an invariant of the split: written files and the present run; induction over removals and renames |
| C116 | `create_srr` and `reconstruct` on a damaged set | C07 moves the SRR to the undamaged volumes, then C06; witnesses for headers |
| C117 | `_parse_ext_time`, `get_most_recent_date` | round trip of the stored form; the loop as a maximum in the order of the calendar |
| C118 | the `can_overwrite` of each tool, `can_create`, the options | the answers as a list, induction over them; an independent definition of leave (Spec/Questions) |
| C119 | calls of `create_srr` with the list of the caller as state | induction over the calls; a witness for SFV files |
| C120 | `add_stored_files` with usenet=True | the list after the check is followed through the blocks; then the theorems for C08 and C11 |
| C121 | `locate_unrar` and its users, with the system as an argument | case analysis against the list of places (Spec/Unrar) |

## Trusted base

* Lean 4.33.0's kernel.  No Mathlib module is imported so far.
* Axioms: every theorem depends on at most `propext`, `Classical.choice` and
  `Quot.sound` (`vcheck` and `#print axioms` show them).  No axiom is added, there
  is no `sorry`, `native_decide` or `bv_decide`.  `decide +kernel` is used for
  concrete witnesses (examples and counterexamples) and finite tables only; it is
  evaluated by the kernel.
* The reading of the Python source: the code is not executed here.  Each
  definition in `Model` cites file and lines.  The behaviour of Python and its
  standard library (`struct`, slices, `file.read/seek`, `zlib.crc32`, `os.path`,
  `re` on the patterns used, `glob`, `sorted`, `dict` order, Unicode codecs) is
  part of the model and thereby trusted.

### What is modelled

| model | code |
|-------|------|
| Blocks, Reader | rescene/rar.py: all SRR and RAR block classes, both directions; `RarReader` without SFX |
| Paths, Files | os.path, `joinpath`, `os_file_name`; file system, faults, crashes |
| Edit, Extract | rescene/main.py: add, remove, rename, merge, extract |
| Create | rescene/main.py: `create_srr`, `create_srr_single_volume`, OSO hashes |
| Reconstruct, Repack | rescene/main.py: `reconstruct`, `_repack`, `_locate_file`, recovery records |
| Info | rescene/main.py: `info`, `content_hash` |
| Compression | compression parameters, threads, RAR repository, usenet retries |
| Glob | `_search`, `escape_glob` |
| Streams | rescene/rarstream.py, rescene/osohash.py |
| Volumes, Regex, Sfv | rescene/utility.py: volume names, SFV files |
| Crc | zlib's CRC-32, `calculate_crc32`, `crc32_combine` |
| Yenc | usenet/yenc.py without `_yenc` |
| Ebml | resample/ebml.py: integers, lacing |
| SrsData | resample/main.py: FileData, TrackData |
| StreamSrs | resample/stream.py and the `stream_*` functions |
| Flac, Mp3 | resample/flac.py, resample/mp3.py and the `flac_*`, `mp3_*` functions |
| Riff | resample/riff.py and the `avi_*` functions |
| Mov | resample/mov.py and the `mp4_*` functions (mdat of size 0, to the end of the file, included) |
| Mkv | resample/ebml.py `EbmlReader` and the `mkv_*` functions (the extra offsets for further attempts are in MkvRetry) |
| MkvRetry | resample/main.py: `_extra_offsets_x265_bug`, `cut_data` in `mkv_load_srs` and `mkv_find_sample_streams`, extraction into files that exist; resample/srs.py: `find_best_educated_guesses`, the attempts after a wrong CRC in `main` |
| Wmv | resample/asf.py and the `wmv_*` functions |
| Inputs | rescene/main.py: `create_srr` from its arguments: `_handle_sfv`, `_handle_rar`, `capitalized_fn`, the names from `_store`, `os.path.relpath` |
| CreateFiles | rescene/main.py: `create_srr` as a sequence of file system operations |
| SrrCommand | rescene/srr.py: `verify_extracted_files`, `create_srr`, `can_overwrite` |
| SrsMain | resample/main.py: `file_type_info`; resample/srs.py: `verify_main`, the choice of the format in `main` |
| Release | bin/pyrescene.py: `get_release_directories`, `is_release`; rescene/utility.py: `DISK_FOLDERS`, `RELEASE_FOLDERS` (on a tree of names: folders that cannot be read and links are left out) |
| AutoSfvs | bin/pyrescene.py: `remove_unwanted_sfvs`, `get_unwanted_sfvs`, `get_start_rar_files` (what an SFV file lists and the names in an archive are parameters) |
| AutoStore | bin/pyrescene.py: the parts of `generate_srr` that make the list of files to store (939-950, 982-1009, 1159-1242); which files are found, copied and fail is a parameter |
| AutoSrr | bin/pyrescene.py: `generate_srr` (877-1243) as accesses to files; what fills the working folder is a parameter, emptying it is left out |
| Bitflip | scripts/bitflip.py, for ranges that are not reversed, with assertions |
| SrsFiles | resample/srs.py: what happens with files on reconstruction |
| SrsExit | resample/srs.py: how `main` ends when an SRS is made; bin/pyrescene.py: what becomes of samples and releases. A search that fails with `Err.other` counts as a track that is not found |
| Retag | bin/retag.py, apart from options, creating folders and messages |
| RarSearch | rescene/main.py: `RarArguments.arglist`, `CompressedRarFile.__init__` and `search_matching_rar_executable`. The archive `rar` makes is an argument; floating point sizes are computed exactly; temporary files and messages are left out |
| RarSets | rescene/main.py: `get_set`, `get_archived_file_blocks`, `next_block`, `followed_by_solid_block`, `previous_block`, `compressed_rar_file_factory`, `set_new`, `get_rar_data_object`, `set_file` and `try_again` of `CompressedRarFileAll` |
| AutoFind | bin/pyrescene.py:149-373: `get_files`, `get_files_list`, `get_sample_files`, `get_music_files`, `get_proof_files`, `filters`, `always_skip`, `store_rls_root`, `similar_to_good_name`, `collect_known_good_filenames`, `has_stored_proof_ext`, `strip_zeros`; a folder tree, sizes and contents of archives are given |
| ImageSize | bin/pyrescene.py:375-429: `get_image_size`, `test_jpeg`, `fixed_resolution_cover`; the tests of the library (`imghdr`) are a parameter |
| Subs | bin/pyrescene.py:665-824 `create_srr_for_subs` and 1120-1159; what `unrar` makes of an archive and making an SRR are given. Archives that contain themselves without end are not in the model |
| SrrMain | rescene/srr.py:207-332 `manage_srr` and 543-615 `main` after the options are read, with the exit status. What `optparse` reads, making an SRR, adding stored files, printing details and what is on disk after an exception of `reconstruct` are not modelled; creation and adding are parameters. |
| SrrSort, SortSets | bin/srr_sort.py:43-200; -m is in SortSets, with digits and case of characters that are not ASCII left open; which files `glob` finds in a folder, printing and folders are not modelled |
| RarRepo | bin/preprardir.py:112-233 without messages, main.py:1734-1800 (loading, sorting, order); what is in RAR and tar archives and what UnRAR gives are arguments |
| AutoCopy | bin/pyrescene.py:594-663 and 934-967, 1094-1122 of `generate_srr`; making folders and writing copies does not fail, and the release does not change |
| CreateFh | rescene/main.py:686-881, `_handle_sfv` and `_handle_rar` on handles, `_store_fh`; what the downloads of a handle give is an argument (Nntp models how a handle reads) |
| Nntp | usenet/srr_usenet.py:304-984 `NNTPFile`: `seek`, `read`, `_which_segment`, the MAGIC; what the first lines of an article have and the number of lines asked for are arguments. Not modelled: missing or damaged articles, the retries on other servers (`init_data`), yEnc decoding (Yenc) |
| NzbFiles | usenet/nzb_utils.py:73-87 `parse_name`, usenet/srr_usenet.py:1120-1250 (`create_srr` up to the call of `create_srr_fh`). Not modelled: reading the XML; `parse_sfv_file` of duplicate SFV files gives numbers of entries and comments (Sfv has the function) |
| SrsBatch | resample/srs.py:224-227, 299-329 (where an SRS goes), bin/srs_batch.py:36-76 |
| SrrTools | bin/srr_extract_srs.py:36-55, bin/srr_merge.py:36-44, rescene/main.py:412-450 on files |
| RarMovie | resample/main.py:113-254 with RAR volumes, 3245-3249, rescene/rar.py:1634-1648, resample/srs.py:415-517 on files |
| Fpcalc | resample/fpcalc.py:43-192, 264-270 |
| SrsTools | bin/srs_size.py:39-48, bin/srs_bad.py:42-93 without printing, utility.py:414-427 |
| SecondMethod | main.py:1926-1929, 1998-2062 and 2622-2708 without the temporary folder and the messages; where a file is found and what `rar` packs are arguments |
| Compressed | main.py:1326-1333, 1723-1728 and 1998-2052 for the first file of a set, as an argument of `reconstruct` |
| MixedSet | rescene/main.py:1998-2054 for a compressed file behind stored ones; nothing was packed before, so that there is no earlier executable |
| SeveralPacked | the compressed files of a set one after the other, `archived_files` growing (main.py:1723-1728, 1998-2054); solid files are in RarSets, the failure of a file (RarNotFound) in SecondMethod |
| Questions | the questions of srs, pyrescene.py and retag.py (srs.py:48-56, pyrescene.py:138-147 and 1602-1629, retag.py:136-141 and 215-228); what is printed is not modelled |
| SharedList | several calls of `create_srr` with one list (main.py:475-500); the SRR files that are made are not among the files that are read |
| AddQuiet | `add_stored_files` with usenet=True (main.py:240-341, 1601-1613); runs without faults of the file system |
| Unrar | rescene/unrar.py in full (printing aside), pyrescene.py:128-136, 1130-1134, 1656-1663 |
| NzbTools | usenet/nzb_split.py:126-216 (the regular expressions and `longest_name` are any function), nzb_merge.py:35-57, nzb_rename.py:28-53; NZB files are lists of `file` elements, XML is not modelled; Python 2 |
| ArchiveDate | main.py:2513-2524 get_most_recent_date, in full; the times themselves (rar.py:84-126) are in Blocks |

### What is not modelled

* rescene/main.py: what RAR executables do (an argument), and
  the connection of C88 and C106 with `reconstruct`, where the packed
  data of compressed files is an argument (C107 connects it for sets of stored and compressed files
  that are not solid), the reporting to observers apart from the
  reports that the properties mention.
* the rest of rescene/srr.py (`optparse`, printing, the thread for messages), bin/ apart from retag.py, srr_sort.py,
  preprardir.py, srs_batch.py, srs_size.py, srs_bad.py, srr_extract_srs.py, srr_merge.py and the parts of pyrescene.py named above, rerar/,
  awescript/, scripts/ apart from bitflip.py, usenet/ apart from yenc.py, nzb_split.py, nzb_merge.py, nzb_rename.py, `parse_name` of nzb_utils.py, and `NNTPFile` and the choice of files of srr_usenet.py, dev-docs/.
* The program fpcalc and where it is found (what it prints is an argument of C104, and in making an SRS
  the fingerprint is an argument), resample/m2ts.py.
* resample/srs.py: option parsing, messages, the batch mode, an SRS and a movie of different
  kinds; samples in RAR archives; progress output and `--debug` everywhere.
* Windows; Python 2 (apart from C115); directories, permissions and hard links; what the operating
  system delays.
* Memory and time.

## Disagreements between the code and the properties

Where the code does not have a property, the negation is proved for a witness, and the theorem
for the remaining cases carries the suffix `_partial` when it is less than the property.

| id | theorem | what happens |
|----|---------|--------------|
| C09 | removed_below_20_unreadable | after removing stored files an SRR can be below 20 bytes, which the reader refuses |
| C11 | failed_add_can_leave_temp | a failing rename leaves the temporary file |
| C49 | remove_can_lose_srr | a failing replacement while removing loses the SRR |
| C15 | content_hash_ignores_volume | volumes with one base name in several folders: all but one are ignored |
| C15 | content_hash_remove_inside | main.py:1007 ends the volume at a stored file: blocks behind it are not hashed, until the stored file is removed |
| C21 | rar_stream_mixes_files | without a name, the first files of single volumes are joined even if they differ |
| C21 | rar_stream_empty_part | an empty first part is taken for the end of the file |
| C25 | sfv_empty_name | an SFV entry can have an empty name |
| C26 | sfv_lt_cycle | the order of SFV entries has cycles |
| C54 | sfv_duplicates_left | duplicates that are not adjacent stay |
| C28 | first_rars_skips_set, is_rar_newline | the list shrinks while it is iterated; a name that ends in a newline is a volume name |
| C30 | ebml_refused | numbers from 2^49 on raise UnboundLocalError |
| C31 | lacing_one_frame | one frame with fixed or EBML lacing |
| C32 | id3_limit | sizes from 2^28 on are not encoded back |
| C34 | track_data_big_number_broken | track numbers from 65536 on |
| C35 | stream_sample_repeated_signature | only the first occurrence of the signature is tried |
| C36 | search_empty | the empty signature in an empty file |
| C37 | avi_movi_needed, avi_own_chunk_lost | no list movi in front of the data; chunks named SRSF or SRST |
| C38 | flac_id3_never_rebuilt, flac_tags_not_rebuilt, flac_own_block_lost | ID3v2 tags on Python 3; blocks of types 115 to 117 |
| C39 | mp3_lyrics3_never_rebuilt, mp3_lyrics3_not_rebuilt, mp3_prepended_refused | a Lyrics3 tag without ID3v1; data in front of the first frame |
| C40 | mp4_two_mdat_not_rebuilt, mp4_backward_not_rebuilt | two atoms mdat; chunks of a track that are stored backward |
| C40 | mp4_new_heads_not_accepted | a version 1 tkhd, which the format allows, ends in an AssertionError |
| C40 | compact_sizes_wrong, mp4_compact_refused | main.py:1289 and 3644 read the compact table stz2 as if it were stsz: the number of bits of a size is taken for the size of all samples |
| C40 | mp4_big_track_number_not_rebuilt, mp4_own_atom_not_rebuilt, mp4_no_mdat_not_loaded | track numbers from 65536 on; atoms SRSF and SRST; no mdat |
| C42 | srs_load_hangs | a zero size field loops forever |
| C43 | yenc_other_escape | escapes outside the fixed list |
| C44 | search_no_wildcards | wildcards never match, because they are escaped |
| C45 | threads_set_skips, threads_min_above_max | counts skipped in an unsorted set; a minimum above the maximum |
| C47 | dict_directory | directories get -mdG |
| C48 | unicode_utf8_name_refused | a name flagged unicode without zero byte |
| C51 | volume_size_padding | padding is not counted |
| C52 | srs_size_unchecked, srs_bad_file_moment, srs_double_slash_fails | the size is never compared; a wrong sample is at the result path for a moment; a double slash |
| C53 | srs_absolute_name, srs_parent_name | names in an SRS with paths are used as they are |
| C58 | info_empty_first_part | size of a file of unknown size with empty first part |
| C58 | info_unknown64_zero | a stored file whose headers all say "size not known" with 64 bits is reported with size 0 |
| C27 | next_num_overflow | behind `x.999` comes `x/000`, a file in another folder |
| C60 | srs_failure_deletes_existing | a failed rebuild deletes a file at the result path |
| C61 | srs_retry_leaves_temp | the first temporary file stays when a retry is made |
| C62 | avi_extra_track_fails, avi_false_start, avi_empty_track_fails | a track only before the sample; data that looks like its start; a track without data |
| C64 | mp4_repeated_signature, mp4_inside_sample_not_found, mp4_checked_empty_track | only the first match is tried; only starts of samples are tried; `-c` drops tracks without data, which are needed later |
| C41, C66 | mkv_late_attachments, mkv_same_name | files attached after the clusters are not read when all frames are found; a second attachment of the same name fails an assertion |
| C41 | mkv_unknown_cluster, mkv_codec_first, mkv_own_element, mkv_empty_frames | refused samples; an SRS element in a sample is lost; a sample without data |
| C66 | mkv_track_200, mkv_strips_differ, mkv_signature_ends_in_strip, mkv_overlapping_start | a start inside an earlier look-alike is missed; one-byte track numbers from 128 on are read as EBML numbers; both files strip headers of different length; the signature ends in a stripped header |
| C63 | mp4_find_does_not_end | an atom with a 64-bit size of zero loops forever |
| C67 | wmv_unlucky_lost | two or more packets at the end that are together, without data, as long as one packet: what follows is read at the wrong place |
| C67 | wmv_own_object_lost, wmv_two_data_lost | objects with the GUID of an SRS object are dropped; with two data objects only the last padding is kept |
| C67 | wmv_streams_confused, wmv_slack_refused | streams whose numbers differ by 16, and data objects longer than their packets, raise AssertionError |
| C67 | wmv_load_hangs, wmv_find_hangs | an object of size 0 is read for ever |
| C68 | wmv_missing_stream_raises, wmv_empty_stream_raises | a stream of the movie without data in the sample raises IndexError; a stream of the sample with empty payloads only, absent from the movie, raises AttributeError |
| C69 | capitals_wrong_file, oso_lost_by_capitals | with several files whose names differ in case only the first one listed is taken, also when another has exactly the given name; the hash of the archived file is dropped when a volume was found by case |
| C70 | rar_input_later_part_accepted | `base.part02.rar` is accepted, the SRR lacks the first volume |
| C71 | saved_name_outside, sfv_not_stored, sfv_stored_twice | `_store` compares text with bytes, so names with `..` are written that can not be extracted; an SFV is missed or stored twice |
| C72 | create_damaged_left, create_existing_lost | a truncated SRR stays after an error in a volume; an existing SRR is gone when a volume is missing |
| C73 | verify_crc_zero | an archived file with CRC 0 is never verified |
| C74 | srr_existing_lost, srr_temp_left | when creating fails, an existing SRR is deleted although the new one is written to another file; that one can stay |
| C75 | check_stream_skipped, check_vob_rar_skipped | with -c an SRS is made without any search: of a stream when the movie is AVI, MKV, MP4, WMV, MP3 or FLAC, and of a .vob file that starts with "Rar!" |
| C76 | stream_taken_for_mp3 | a .ts, .m2ts or .vob file that starts with eleven set bits is handled as MP3 |
| C76 | tagged_music_in_rar | music with an ID3v2 tag in a RAR archive is a TypeError: only 8 bytes of it are read |
| C76 | riff_by_name | RIFF files are AVI unless the name ends in .mp3 in lower case |
| C77 | retry_all_short | when each track has further offsets, `min()` of an empty list is a ValueError: no second attempt |
| C77 | retry_finds_violated | of the places before the other tracks only the last is tried, and the first match of a track is not combined with other places: a sample that is in the movie, at a place that was found, is not rebuilt |
| C78 | search_complete_violated | a release in a folder whose path begins with the path of the release found before it (`A-GRP`, `A-GRP.more/B-GRP`) is skipped |
| C78 | cd_title_violated, cd_titles_split_violated | `\d{1-2}` in a pattern stands for a digit and the text `{1-2}`: disks with titles never match, and each disk of the release in the comment becomes a release |
| C78 | stray_nfo_splits_violated | with `imdb.nfo` beside them, the two folders of an old music release become two releases |
| C79 | main_subs_letters_violated | `exvid-subsam.sfv` of the release `sub.sam-exvid` contains `subs`: with another SFV file in a folder `Extra` the SRR gets the extras only |
| C80 | skip_both_violated | a file that is named with `-x` and matched by the pattern to skip is removed twice: ValueError, no SRR |
| C80 | srs_apart_violated, srs_longer_violated | `itertools.groupby` only sees neighbours: `a.avi`, `b.avi`, `a.mkv` give `a.srs` twice and the second overwrites the first; the longer name `a.avi.srs` can be that of `a.avi.vob` |
| C80 | nfo_part_violated | `in ("no.nfo")` is a test on a text: an eight byte `o.nfo` is not stored |
| C81 | stream_commands_violated | only the first place with the first 256 bytes is tried |
| C82 | auto_temp_left, auto_interrupt_example | pyrescene leaves its temporary file when a file can not be copied or stored, and when it is interrupted: the handler of KeyboardInterrupt fails on `e.message` before it deletes the file |
| C84 | byte_wrong | bitflip.py --byte stops at the first match: for every file above 145212 bytes there is damage of one byte after which another file than the original is written |
| C85 | unknown_stops, big_stops, incomplete_stops, no_tracks_stops, format_stops, fingerprint_stops, sample_stops_release, check_stops_sample, sample_stops_run | srs.py:653 calls `exit(2, text)` where `pexit` is meant. That is a TypeError, which pyrescene does not expect: one empty, unknown, cut off or too big sample, or a main file of another format, ends the run, without SRR for the release, and the releases that follow are not handled |
| C86 | retag_never_succeeds, video_stops, twin_left, join_fix_case_twins | `fix_tracks` returns nothing, so that the exit status of retag.py is never 0. The SRS of a video is removed twice, which ends the run before the tracks that follow are fixed. `extract_files` with a name without folder also extracts files of that name in folders, and retag.py uses the first: the SRS that was meant is left behind unused |
| C87 | single_part_unchecked, old_stops, more_not_found, unknown_before_stops | Of a file in one part only the size of the packed data is compared, so that another RAR version can be chosen and the volume comes out wrong. A file of RAR 2.0 (no CRC in its block) ends with `UnboundLocalError`. `reset_extra_files` after the first executable drops the file that was to be added behind. When the entry before the file is a directory, `archived_files[prev.file_name]` is a `KeyError` |
| C88 | solid_split_fails, solid_split_missed, solid_unknown_first, set_interleaved, data_stale | `set_new` compares the size of all the packed data with that of the first part. `next_block` and `followed_by_solid_block` give the second part of the same file. The first file of a solid set must have been compressed. A volume of another set ends the set. `archived_files` is kept for the life of the process and `setdefault` gives the object of the earlier file of the same name |
| C89 | capitals_missed, sample_in_parent, parent_words, ts_missed | the name of an image is lowered before it is compared with names that are not. The words `sample` and `proof` are looked for in the whole path, with the folders above the release. Four characters are cut off a path for the SFV file, also for `.ts` |
| C90 | dqt_unknown | the third test of `test_jpeg` compares bytes with text, which is never equal in Python 3 |
| C91 | subs_collide, languages_of_before, subs_fail_together, skip_by_end | the SRR is named after the first volume without its last four characters. `languages.diz` is appended to and stays in the working folder. A `ValueError` ends the whole SFV file. Only the end of the path of a stored file is compared |
| C92 | wrong_volume_ok, refused_ok, no_rars_ok, only_first, capitals_created | nothing looks at what `reconstruct` returns, and the messages on checksums do not count for the status. A set that is not rebuilt because the user does not want to overwrite a volume, or because the folder of -z is empty (also when nothing is compressed), gives status 0. Only `infiles[0]` is used. The type is checked without regard to capitals and the decision what to do is made with `endswith(".srr")`. |
| C93 | nfos_never, nfos_unlisted, jpeg_unlisted, first_image_counts, dirfix_stays, sort_overwrites, multiple_numbers, multiple_unlisted | With -m `re.match` gives `None` for x.001, and files and archives are counted over all archives. `nfo_count = 0` is in the loop. The list of images has "jpeg" without a dot, and the extension is not made lower case. `check_image` returns at the first image. -d prints without setting `result`. `os.renames` replaces what is there, so of SRR files with the same name in different folders only the last is left. |
| C94 | bits_lost, text_loaded, code_stops | The version in the new name leaves out `x64`, and `os.rename` replaces the file on POSIX. The pattern for executables has no end. `RETURNCODE[extract.wait()]` raises KeyError for other codes. |
| C95 | case_lost, nfo_skipped, fix_of_subs | `capitalized_fn` takes the first name of the folder that is the same up to case. `in ("no.nfo")` looks for a part of the text. The comment of `is_storable_fix` excludes RAR, sub, audio and sample fixes; the second pattern does not. |
| C96 | fh_both_capitals, fh_existing_lost, fh_bare_name, fh_stat_ignored, fh_size_trusted | The code has the first as a TODO. The SRR is opened before the input is looked at, and removed after an error. `os.makedirs("")` fails. `stat` only decides about a message (srr_usenet.py tests its own option in the handle). `file_size()` is the size that the yEnc header announces. |
| C97 | straddle_wrong, between_short, magic_shifts, past_end | The code knows that data is incomplete only for the last part of a read. The documentation of `read` says "at most size bytes", and warns that the MAGIC can cause issues in rare cases. |
| C98 | parse_yenc, sfv_stays, stored_twice, capitals_differ | `for sfile in sfvs: sfvs.remove(sfile)` skips elements. The code has "do the same for other files?" as a TODO for the second. |
| C99 | ddd_sample_name, bare_refused | The help text of `--ddd` begins with "Same as above". `os.path.exists("")` is false. |
| C100 | batch_stops, batch_collide, batch_n | srs.py:653 again. With `-n` the list of arguments has an empty text, which srs takes for the path of a second file. |
| C101 | extract_srs_misses | srr_extract_srs.py:48 compares the extension with its case, and main.py:190 compares the path of the file with the name that was asked for, in which a backslash was not replaced: such SRS files are not extracted, without a message. |
| C102 | merge_over_input, merge_destroys | main.py:439 empties the output before line 445 reads the stored files: an SRR that is merged into itself loses them. `srr_merge *.srr` for the second time does so with the earlier result. |
| C103 | movie_in_capitals, compressed_text, mp4_other_file | main.py:155 compares extensions in lower case only, so that with another file in front the movie `M.AVI` is not used; any compressed file in the volumes makes the movie unknown; main.py:3247 `open_main` opens the first file of each volume instead of the MP4 movie that was chosen |
| C104 | fingerprint_copy_stays, string_start, string_too_early, string_any_ff | fpcalc.py:185-187 is not reached when an exception is raised, so that the copy of a file with a name that is not ASCII stays in the temporary folder; fpcalc.py:170 subtracts the index of the frame instead of adding it; fpcalc.py:159 seeks to a negative position when the string is within the first 256 bytes; fpcalc.py:163 tests the byte FF itself instead of the next one |
| C105 | size_stops, bad_stops, bad_backslash, bad_same_name, stream_start_listed | srs_size.py:44-45 and srs_bad.py:76-77 use `None` for unknown files; srs_bad.py:83 is not reached after an exception; srs_bad.py:69 extracts without folders and never overwrites, so that the first file of a name is the one that is looked at; srs_bad.py:71 does not take a backslash as separator, but extraction does; srs_bad.py:79 takes 0 as "not compared" |
| C106 | second_twice, second_leftover, second_other_set | main.py:2660 goes over parts, not files; main.py:2657-2663 change the parameters of the earlier file, `store_all_files` is never emptied; main.py:2000-2003 never looks at the set again and nothing resets `regular_method_failed` |
| C107 | single_wrong | main.py:2368-2386 compares only the CRC in the header, which is that of the unpacked file, when all of the packed data is there; main.py:1552 does not check compressed files |
| C108 | one_volume_false_report | main.py:1303 and 1324 set the running CRC to 0 although the parts in the volumes left out are not read, and main.py:1552 compares it with the CRC of the whole file |
| C109 | second_file_wrong, second_set_wrong, directory_alone_fails, subset_middle_fails, several_asked_wrong | main.py:1297-1300 counts the place for the last file of the volumes left out only, and main.py:1357 seeks to it for every file of the volume asked for; rarstream.py:351 refuses to seek to the end of an empty fake file; main.py:1302 marks a file as open that is not; the parts in a volume that is rebuilt are not counted for the next one asked for |
| C110 | merged_same_file_wrong | main.py:1318 opens a source only when the name changes: the file of a second set with the same name is read on from where the first set ended, and zeros are written |
| C110 | merged_twice_wrong | main.py:1266 opens a volume only when the name is another one: a volume that is in a merged SRR twice is appended to itself |
| C115 | split_loses, split_loses_existing, split_loses_nameless, merge_crash_loses, rename_loses | nzb_split.py writes the last release over its NZB (nzb_split.py:206-214 has no test for a file that is there), and files whose name has only special characters are not written; nzb_merge.py empties its output before it writes it; nzb_rename.py renames over an NZB of the same name |
| C116 | damaged_type_dropped, cut_volume_takes_next, damaged_type_stored | rar.py never compares the CRC of a header; rar.py:1590 reads the data of other blocks without comparing its length with ADD_SIZE; main.py:1376 skips unknown blocks with a message; block types of SRR files are accepted in volumes |
| C118 | tag_no_forgotten, folder_unasked | retag.py:137 passes only -y to srs; pyrescene.py:140 tests whether a file exists at the path where the folder is missing, so that the question is never asked |
| C119 | shared_list_leaks, shared_list_twice | main.py:500 extends the list of the caller (`store_files.extend`) instead of a copy |
| C120 | quiet_always_fails | main.py:265 calls os.path.normpath on open files; main.py:1603 reads the attribute `name` of paths, outside of the `try` |
| C121 | unrar_missing_raises, unrar_folder_hides | pyrescene.py:136 calls os.path.abspath on None; unrar.py uses os.path.exists |
| C68 | wmv_false_start_lost | a sample whose data occurs once is not found when a false start precedes it in the same payload |

## Tests against wrong programs

`seeded/LOG.jsonl` has one line for each edit of the model that was tried (a few hundred in
rounds m1, m2, ...).  Edits that survived were either equivalent to the original, or made
claims false that no theorem stated; in the second case theorems were added or tightened
and the line names them.
