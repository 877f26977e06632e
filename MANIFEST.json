{
 "claims": [
  {
   "property": "C01",
   "status": "proved",
   "theorems": [
    "Props.C01_readBits_big",
    "Props.C01_readBits_little",
    "Props.C01_readBits_middle",
    "Props.C01_readBits_past_end",
    "Props.C01_readBits_iff",
    "Props.C01_file_stream",
    "Props.C01_negative_address_accepted"
   ],
   "note": "Success and error cases for in-memory and file streams at non-negative addresses, all endians. Negative addresses are accepted by the in-memory stream: C01_negative_address_accepted shows the disagreement."
  },
  {
   "property": "C02",
   "status": "proved",
   "theorems": [
    "Props.C02_readInteger_signed",
    "Props.C02_readInteger_unsigned",
    "Props.C02_readInteger_range",
    "Props.C02_readInteger_zero"
   ],
   "note": ""
  },
  {
   "property": "C03",
   "status": "proved",
   "theorems": [
    "Props.C03_readBits_split_big",
    "Props.C03_readBits_split_little"
   ],
   "note": "Big and little endian."
  },
  {
   "property": "C04",
   "status": "proved",
   "theorems": [
    "Props.C04_readBytes",
    "Props.C04_readBytes_unaligned"
   ],
   "note": ""
  },
  {
   "property": "C05",
   "status": "proved",
   "theorems": [
    "Props.C05_searchBytes",
    "Props.C05_searchBytes_empty",
    "Props.C05_searchBytes_unaligned",
    "Props.C05_searchBytesLength"
   ],
   "note": "Streams of known size (in-memory); the loop with an unknown size is part of the pipe model."
  },
  {
   "property": "C06",
   "status": "partial",
   "theorems": [
    "Props.C06_subStream_inside_partial",
    "Props.C06_subStream_leaks",
    "Props.C06_subStream_nested",
    "Props.C06_subStream_offset_outside",
    "Props.C06_middle_unaligned_window_fails"
   ],
   "note": "Reads inside the window agree with the window's bits. Reads that leave the window are not refused by the code (C06_subStream_leaks proves the negation)."
  },
  {
   "property": "C07",
   "status": "proved",
   "theorems": [
    "Props.C07_pipe_transparent",
    "Props.C07_recent_blocks_readable",
    "Props.C07_discarded_prefix",
    "Props.C07_small_source",
    "Props.C07_piped_readBits",
    "Props.C07_piped_readBits_past_end"
   ],
   "note": "For a source that delivers full reads; block size and cache size are parameters. Reads of discarded blocks are refused, never wrong."
  },
  {
   "property": "C08",
   "status": "proved",
   "theorems": [
    "Props.C08_stream_size_exact",
    "Props.C08_stream_size_stable",
    "Props.C08_pipe_size_changes",
    "Props.C08_empty_source"
   ],
   "note": "The stream's size; the attribute of the underlying pipe object does change (C08_pipe_size_changes)."
  },
  {
   "property": "C09",
   "status": "proved",
   "theorems": [
    "Props.C09_writeBits_readBits_big",
    "Props.C09_writeBits_readBits_little",
    "Props.C09_unpadded_bits_pending",
    "Props.C09_writeBits_range"
   ],
   "note": ""
  },
  {
   "property": "C10",
   "status": "partial",
   "theorems": [
    "Props.C10_flags_collide",
    "Props.C10_writeBit_ne_writeBits",
    "Props.C10_eight_flags_partial"
   ],
   "note": "False of the code: writeBit puts flags at other positions than writeBits (C10_writeBit_ne_writeBits, C10_flags_collide); eight flags in a row from a byte boundary are the partial result."
  },
  {
   "property": "C11",
   "status": "partial",
   "theorems": [
    "Props.C11_writeInteger_unsigned",
    "Props.C11_writeInteger_signed_partial",
    "Props.C11_signed_never_round_trips",
    "Props.C11_writeInteger_unaligned"
   ],
   "note": "Unsigned round trip proved; signed values are stored in offset binary and never read back (C11_signed_never_round_trips)."
  },
  {
   "property": "C12",
   "status": "proved",
   "theorems": [
    "Props.C12_str2long_big",
    "Props.C12_str2long_little",
    "Props.C12_str2long_long2raw",
    "Props.C12_long2raw_length",
    "Props.C12_long2raw_minimal",
    "Props.C12_long2raw_str2long",
    "Props.C12_long2raw_errors"
   ],
   "note": ""
  },
  {
   "property": "C13",
   "status": "proved",
   "theorems": [
    "Props.C13_swap16",
    "Props.C13_swap16_involution",
    "Props.C13_swap32",
    "Props.C13_swap32_involution",
    "Props.C13_strswapmid",
    "Props.C13_strswapmid_involution",
    "Props.C13_strswapmid_odd",
    "Props.C13_str2long_middle"
   ],
   "note": ""
  },
  {
   "property": "C14",
   "status": "partial",
   "theorems": [
    "Props.C14_countBits",
    "Props.C14_bin2long",
    "Props.C14_bin2long_long2bin_partial",
    "Props.C14_long2bin_same_endian_fails",
    "Props.C14_byte2bin"
   ],
   "note": "bin2long and long2bin are inverse only across endians: C14_long2bin_same_endian_fails proves that the same-endian round trip is false of the code."
  },
  {
   "property": "C15",
   "status": "proved",
   "theorems": [
    "Props.C15_alignValue",
    "Props.C15_paddingSize",
    "Props.C15_zero"
   ],
   "note": ""
  },
  {
   "property": "C16",
   "status": "proved",
   "theorems": [
    "Props.C16_lowerBound",
    "Props.C16_lowerBound_total",
    "Props.C16_binarySearch"
   ],
   "note": ""
  },
  {
   "property": "C17",
   "status": "proved",
   "theorems": [
    "Hachoir.Props.C17_no_control",
    "Hachoir.Props.C17_charset",
    "Hachoir.Props.C17_makeUnicode",
    "Hachoir.Props.C17_plain_unchanged",
    "Hachoir.Props.C17_plain_changed",
    "Hachoir.Props.C17_not_injective",
    "Hachoir.Props.C17_c1_not_escaped",
    "Hachoir.Props.C17_readable",
    "Hachoir.Props.C17_readable_quoted",
    "Hachoir.Props.C17_injective_partial"
   ],
   "note": "No control characters, charset bound, plain text unchanged, text without backslash can be read back from the printed form. Smart mode rewrites a literal \\x0N in plain text and C1 controls are kept: proved as witnesses."
  },
  {
   "property": "C18",
   "status": "proved",
   "theorems": [
    "Props.C18_dict_refines_list",
    "Props.C18_replace_existing_key"
   ],
   "note": "Dict refines an association list for every history; the fresh-key restriction on replace is necessary (C18_replace_existing_key)."
  },
  {
   "property": "C19",
   "status": "proved",
   "theorems": [
    "Hachoir.Props.C19_fields_tile",
    "Hachoir.Props.C19_explicit_number_leaves_hole"
   ],
   "note": "For parsers whose automatic numbering (x[] or a clash on x) never meets a number chosen by the parser itself for the same key; C19_explicit_number_leaves_hole shows the condition is needed."
  },
  {
   "property": "C20",
   "status": "proved",
   "theorems": [
    "Hachoir.Props.C20_autofix_covers",
    "Hachoir.Props.C20_missing_content_filled",
    "Hachoir.Props.C20_strict_covers",
    "Hachoir.Props.C20_strict_underrun",
    "Hachoir.Props.C20_strict_overrun",
    "Hachoir.Props.C20_fixLastField"
   ],
   "note": "Autofix on: reading never raises and covers exactly; autofix off: exact cover or ParserError."
  },
  {
   "property": "C21",
   "status": "proved",
   "theorems": [
    "Hachoir.Props.C21_names_unique",
    "Hachoir.Props.C21_numbers_grow",
    "Hachoir.Props.C21_numbers_consecutive",
    "Hachoir.Props.C21_clash_numbered",
    "Hachoir.Props.C21_gap_after_exception"
   ],
   "note": "Unique names, growing consecutive numbers; C21_gap_after_exception shows gaps when reading continues after an exception with autofix off."
  },
  {
   "property": "C22",
   "status": "proved",
   "theorems": [
    "Hachoir.Props.C22_order_independent",
    "Hachoir.Props.C22_tree_order_independent",
    "Hachoir.Props.C22_name_found_second_time",
    "Hachoir.Props.C22_iteration_skips_field"
   ],
   "note": "One field set and the whole tree; two exceptions shown by C22_name_found_second_time and C22_iteration_skips_field."
  },
  {
   "property": "C23",
   "status": "proved",
   "theorems": [
    "Hachoir.Props.C23_field_by_address",
    "Hachoir.Props.C23_existing_fields",
    "Hachoir.Props.C23_negative_address"
   ],
   "note": "For every reachable field set, everywhere in the tree; a negative address gives the first field (witness)."
  },
  {
   "property": "C24",
   "status": "proved",
   "theorems": [
    "Hachoir.Props.C24_replace",
    "Hachoir.Props.C24_replace_refused",
    "Hachoir.Props.C24_replace_succeeds",
    "Hachoir.Props.C24_write_fields",
    "Hachoir.Props.C24_write_refused",
    "Hachoir.Props.C24_reachable",
    "Hachoir.Props.C24_half_replaced"
   ],
   "note": "replaceField and writeFieldsIn on any contiguous field set with unique names; success under usable names; a clash of a later name leaves the set half replaced (witness)."
  },
  {
   "property": "C25",
   "status": "proved",
   "theorems": [
    "Hachoir.Props.C25_path_finds_field",
    "Hachoir.Props.C25_found_has_path",
    "Hachoir.Props.C25_missing",
    "Hachoir.Props.C25_dots",
    "Hachoir.Props.C25_compose",
    "Hachoir.Props.C25_sibling",
    "Hachoir.Props.C25_empty_key",
    "Hachoir.Props.C25_lazy_errors",
    "Hachoir.Props.C25_slash_in_name"
   ],
   "note": "Every field of every reachable tree is found by its path, what is found has the path asked for, dots, siblings and composition of keys; MissingField exactly for absent paths among the fields read."
  },
  {
   "property": "C26",
   "status": "proved",
   "theorems": [
    "Hachoir.Props.C26_gaps_cover",
    "Hachoir.Props.C26_gaps_ordered",
    "Hachoir.Props.C26_block_behind_end",
    "Hachoir.Props.C26_seekable_covered",
    "Hachoir.Props.C26_seekable_empty_raises"
   ],
   "note": "getgaps for all block lists inside the range; RootSeekableFieldSet fills all holes; blocks behind the end and empty sets as witnesses."
  },
  {
   "property": "C27",
   "status": "partial",
   "theorems": [
    "Hachoir.Props.C27_item",
    "Hachoir.Props.C27_length_partial",
    "Hachoir.Props.C27_items_exist",
    "Hachoir.Props.C27_len_wrong_after_miss"
   ],
   "note": "Items always equal the direct lookup; length and iteration right when no missing index was asked for before; wrong afterwards (witness)."
  },
  {
   "property": "C28",
   "status": "proved",
   "theorems": [
    "Hachoir.Props.C28_unmodified",
    "Hachoir.Props.C28_field_by_field"
   ],
   "note": "Whole-file root: the unmodified editor writes exactly the input bytes; field-by-field writing gives the same bits."
  },
  {
   "property": "C29",
   "status": "partial",
   "theorems": [
    "Hachoir.Props.C29_written_partial",
    "Hachoir.Props.C29_size",
    "Hachoir.Props.C29_address",
    "Hachoir.Props.C29_written_bytes",
    "Hachoir.Props.C29_new_bytes_fail",
    "Hachoir.Props.C29_new_bytes_old_value",
    "Hachoir.Props.C29_signed_wrong",
    "Hachoir.Props.C29_int64_refused",
    "Hachoir.Props.C29_bit_deleted_fails",
    "Hachoir.Props.C29_unaligned_set_fails",
    "Hachoir.Props.C29_len_wrong"
   ],
   "note": "Written bits, size and addresses after any edit history of an editor tree with one endianness (big or little); total for byte aligned trees. Signed integers and new EditableBytes violate the claim (shown by witnesses)."
  },
  {
   "property": "C30",
   "status": "partial",
   "theorems": [
    "Hachoir.Props.C30_edits_covered",
    "Hachoir.Props.C30_before_partial",
    "Hachoir.Props.C30_after_partial",
    "Hachoir.Props.C30_end_partial",
    "Hachoir.Props.C30_delete",
    "Hachoir.Props.C30_names_unique",
    "Hachoir.Props.C30_after_twice_loses",
    "Hachoir.Props.C30_after_becomes_before",
    "Hachoir.Props.C30_before_twice",
    "Hachoir.Props.C30_end_reversed",
    "Hachoir.Props.C30_after_last_fails",
    "Hachoir.Props.C30_delete_inserted_ignored"
   ],
   "note": "Placement proved where no earlier insertion exists at the same place, or beside an inserted field; the full claim is false (lost, reversed or misplaced insertions; shown by witnesses)."
  },
  {
   "property": "C31",
   "status": "partial",
   "theorems": [
    "Hachoir.Props.C31_and",
    "Hachoir.Props.C31_join",
    "Hachoir.Props.C31_or_partial",
    "Hachoir.Props.C31_or_terminates",
    "Hachoir.Props.C31_or_list_partial",
    "Hachoir.Props.C31_exclude_gives_intersection",
    "Hachoir.Props.C31_exclude_wrong",
    "Hachoir.Props.C31_dot_newline_wrong",
    "Hachoir.Props.C31_repeat_partial",
    "Hachoir.Props.C31_nested_repeat_wrong",
    "Hachoir.Props.C31_open_item_wrong",
    "Hachoir.Props.C31_repeat_refuses_valid"
   ],
   "note": "& proved for all expressions. | proved for well-formed expressions without excluding ranges, on texts without newline or without dots; it always returns. Repetition proved under RepeatOk. Counterexamples proved: excluding ranges, dot and newline, nested repetition, open item, ValueError."
  },
  {
   "property": "C32",
   "status": "proved",
   "theorems": [
    "Hachoir.Props.C32_minLength",
    "Hachoir.Props.C32_maxLength",
    "Hachoir.Props.C32_maxLength_fails"
   ],
   "note": "minLength/maxLength bounds for every match; maxLength raises TypeError for some valid expressions (proved)."
  },
  {
   "property": "C33",
   "status": "partial",
   "theorems": [
    "Hachoir.Props.C33_and_fresh",
    "Hachoir.Props.C33_and_apart_partial",
    "Hachoir.Props.C33_left_operand_changed",
    "Hachoir.Props.C33_self_concatenation_wrong"
   ],
   "note": "& only: nothing changes if the left operand is not a RegexAnd; otherwise only the RegexAnd objects of its last spine can change (proved under separation). The full claim is false: left operand changed, x & x wrong (proved). | is not modelled with sharing."
  },
  {
   "property": "C34",
   "status": "proved",
   "theorems": [
    "Hachoir.Props.C34_table",
    "Hachoir.Props.C34_prefix_free",
    "Hachoir.Props.C34_decode",
    "Hachoir.Props.C34_decode_sound",
    "Hachoir.Props.C34_oversubscribed_accepted",
    "Hachoir.Props.C34_limit"
   ],
   "note": "Table built for any lengths, prefix-free under Kraft's inequality, decoding of every code word sequence (words up to 257 bits), soundness of every decoded symbol; oversubscribed lengths are accepted (proved)."
  },
  {
   "property": "C35",
   "status": "proved",
   "theorems": [
    "Hachoir.Props.C35_extend_data",
    "Hachoir.Props.C35_each_byte",
    "Hachoir.Props.C35_offset_zero",
    "Hachoir.Props.C35_offset_too_far"
   ],
   "note": "Every copy with 0 < offset <= len(data); offset 0 and offsets beyond the beginning characterised separately (proved)."
  },
  {
   "property": "C36",
   "status": "partial",
   "theorems": [
    "Hachoir.Props.C36_zlib_partial",
    "Hachoir.Props.C36_raw_partial",
    "Hachoir.Props.C36_no_stored",
    "Hachoir.Props.C36_literals",
    "Hachoir.Props.C36_stored_lost",
    "Hachoir.Props.C36_repeat_after_zeros",
    "Hachoir.Props.C36_crossing_run",
    "Hachoir.Props.C36_raw_trailing"
   ],
   "note": "All block sequences in every encoding, with stored blocks counted as empty and dynamic headers without repeat over the boundary of the two lists or 'previous length' after zeros. The full claim is false for each of the three (proved); preset dictionary not covered."
  },
  {
   "property": "C37",
   "status": "partial",
   "theorems": [
    "Hachoir.Props.C37_distinct",
    "Hachoir.Props.C37_sound",
    "Hachoir.Props.C37_kept",
    "Hachoir.Props.C37_longest",
    "Hachoir.Props.C37_first",
    "Hachoir.Props.C37_type",
    "Hachoir.Props.C37_nonempty",
    "Hachoir.Props.C37_length",
    "Hachoir.Props.C37_newlines",
    "Hachoir.Props.C37_begin",
    "Hachoir.Props.C37_end",
    "Hachoir.Props.C37_number_partial",
    "Hachoir.Props.C37_duration",
    "Hachoir.Props.C37_date",
    "Hachoir.Props.C37_date_accepted",
    "Hachoir.Props.C37_datetime",
    "Hachoir.Props.C37_nan",
    "Hachoir.Props.C37_untyped",
    "Hachoir.Props.C37_last_day",
    "Hachoir.Props.C37_zone",
    "Hachoir.Props.C37_keys",
    "Hachoir.Props.C37_metadata",
    "Hachoir.Props.C37_other_keys",
    "Hachoir.Props.C37_unknown_key"
   ],
   "note": "Distinctness, soundness, type, length, newline and filter claims hold for all histories. Partial: a number filter does not stop NaN (C37_nan), nor texts under keys without a type (C37_untyped); a date bound excludes moments of its last day (C37_last_day); a time zone of a day or more makes the call raise (C37_zone)."
  },
  {
   "property": "C38",
   "status": "proved",
   "theorems": [
    "Hachoir.Props.C38_plaintext",
    "Hachoir.Props.C38_none"
   ],
   "note": "All metadata reachable through the registered keys; the conversion of single values to text is a parameter of the model."
  },
  {
   "property": "C39",
   "status": "partial",
   "theorems": [
    "Hachoir.Props.C39_registry",
    "Hachoir.Props.C39_filename",
    "Hachoir.Props.C39_candidates",
    "Hachoir.Props.C39_once",
    "Hachoir.Props.C39_complete",
    "Hachoir.Props.C39_restricted",
    "Hachoir.Props.C39_order",
    "Hachoir.Props.C39_validated",
    "Hachoir.Props.C39_first",
    "Hachoir.Props.C39_none",
    "Hachoir.Props.C39_unknown_id",
    "Hachoir.Props.C39_cached",
    "Hachoir.Props.C39_class_twice"
   ],
   "note": "Candidates, their order, completeness, restriction, validation and first-accepted choice are proved for every parser list, tag list and stream. The statement as written fails in three corners, each with a witness: a parser named by a \"class\" tag is tried twice (C39_class_twice), a parser cached by the stream is returned whatever the candidates are (C39_cached), and an unknown id switches validation off (C39_unknown_id)."
  },
  {
   "property": "C40",
   "status": "partial",
   "theorems": [
    "Hachoir.Props.C40_sound",
    "Hachoir.Props.C40_cover",
    "Hachoir.Props.C40_complete_partial",
    "Hachoir.Props.C40_returns",
    "Hachoir.Props.C40_load",
    "Hachoir.Props.C40_overlap_lost",
    "Hachoir.Props.C40_same_magic_lost",
    "Hachoir.Props.C40_enclosing_lost",
    "Hachoir.Props.C40_boundary_lost",
    "Hachoir.Props.C40_unaligned_error"
   ],
   "note": "Soundness, slice coverage, termination with a bound on the number of slices, absence of errors for byte-sized files and registration of all signatures are proved for all inputs. Completeness is proved for occurrences not overlapped from the left and outside the stated exceptions. The full statement is false: signatures across a slice end, overlapped signatures, second classes with the same signature and files enclosing a skipped file are lost (C40_*_lost), a skipped file of odd bit size stops the search (C40_unaligned_error), one malformed magic entry prevents any search (C40_load)."
  },
  {
   "property": "C41",
   "status": "proved",
   "theorems": [
    "Props.C41_reads_are_consecutive",
    "Props.C41_slices_join"
   ],
   "note": "For every decompressor that meets the stated contract."
  },
  {
   "property": "C42",
   "status": "partial",
   "theorems": [
    "Hachoir.Props.C42_byte",
    "Hachoir.Props.C42_byte_text",
    "Hachoir.Props.C42_wide_partial",
    "Hachoir.Props.C42_wide_missing_partial",
    "Hachoir.Props.C42_utf16le_text",
    "Hachoir.Props.C42_wide_early",
    "Hachoir.Props.C42_wide_beyond",
    "Hachoir.Props.C42_line_other_endian",
    "Hachoir.Props.C42_middle_endian"
   ],
   "note": "Byte strings (C and Unix line) proved in full: size, content and refusal when no terminator exists. UTF-16/32 strings: proved only when no terminator occurs unaligned and the endianness agrees; the rest is refuted by witnesses (terminator found at odd offset, field beyond the file, terminator looked up with the parent's byte order, KeyError in middle endian)."
  },
  {
   "property": "C43",
   "status": "partial",
   "theorems": [
    "Props.C43_concat",
    "Props.C43_concat_bit_size_wrong",
    "Props.C43_fragmented_partial",
    "Props.C43_fragments_unaligned",
    "Props.C43_single_fragment_size"
   ],
   "note": "Proved for byte-aligned fragments and in-memory streams; off byte boundaries the code is wrong (witnesses)."
  },
  {
   "property": "C44",
   "status": "partial",
   "theorems": [
    "Props.C44_known_size_partial",
    "Props.C44_negative_seek_accepted",
    "Props.C44_read_minus_one",
    "Props.C44_piped_partial",
    "Props.C44_piped_read_behind_end",
    "Props.C44_piped_tail_read_position"
   ],
   "note": "Known sizes: every history in the file protocol. Unknown size: histories without seeks from the end, until data was discarded. Witnesses for the deviations."
  },
  {
   "property": "C45",
   "status": "partial",
   "theorems": [
    "Hachoir.Props.C45_unix",
    "Hachoir.Props.C45_mac32",
    "Hachoir.Props.C45_unix_injective",
    "Hachoir.Props.C45_unix_valid",
    "Hachoir.Props.C45_uuid60_partial",
    "Hachoir.Props.C45_win64_partial",
    "Hachoir.Props.C45_duration_exact_partial",
    "Hachoir.Props.C45_duration_millis",
    "Hachoir.Props.C45_win64_inexact",
    "Hachoir.Props.C45_win64_sixteen",
    "Hachoir.Props.C45_msdos_partial",
    "Hachoir.Props.C45_msdos_zero",
    "Hachoir.Props.C45_msdos_file",
    "Hachoir.Props.C45_msdos_date_first"
   ],
   "note": "UNIX, Mac and millisecond durations exact for all values, MS-DOS exact for month and day not 0 with rejection of every invalid date; UUID60/Win64 at most 16 microseconds off. The full claim is false: microseconds lost by float division, month/day 0 accepted (proved)."
  },
  {
   "property": "C46",
   "status": "proved",
   "theorems": [
    "Props.C46_copyBytesFrom",
    "Props.C46_copyBitsFrom_big",
    "Props.C46_copyBitsFrom_little",
    "Props.C46_copyBitsFrom_limit"
   ],
   "note": "Unaligned copies are limited to 256 bits by the code (C46_copyBitsFrom_limit)."
  },
  {
   "property": "C47",
   "status": "proved",
   "theorems": [
    "Hachoir.Props.C47_leaves_partition",
    "Hachoir.Props.C47_leaves_disjoint",
    "Hachoir.Props.C47_inside_parent"
   ],
   "note": "Leaves partition the file, for all reachable trees."
  },
  {
   "property": "C48",
   "status": "partial",
   "theorems": [
    "Hachoir.Props.C48_escape",
    "Hachoir.Props.C48_range_partial",
    "Hachoir.Props.C48_caret_range_wrong",
    "Hachoir.Props.C48_antislash_range_wrong",
    "Hachoir.Props.C48_open_group_never_returns"
   ],
   "note": "Escaped texts: proved for all texts. Ranges: proved for items without \\, ], - ends (other than the single characters) and not starting with ^. Counterexamples proved: range of ^ and a prints as [^a], range of antislash, a(b| never returns. Other expression classes are not printed by the model."
  },
  {
   "property": "C49",
   "status": "partial",
   "theorems": [
    "Hachoir.Props.C49_commit_returns",
    "Hachoir.Props.C49_strings",
    "Hachoir.Props.C49_pattern_found",
    "Hachoir.Props.C49_max_length_partial",
    "Hachoir.Props.C49_boundary_lost"
   ],
   "note": "Strings: fully proved (language, getPattern, commit returns). Regular expressions: max_length bound under the C31 conditions; KeyError witness for \\b. re.finditer itself is not modelled."
  },
  {
   "property": "C50",
   "status": "partial",
   "theorems": [
    "Hachoir.Props.C50_fixed",
    "Hachoir.Props.C50_fixed_range",
    "Hachoir.Props.C50_mark",
    "Hachoir.Props.C50_unmarked",
    "Hachoir.Props.C50_pascal_partial",
    "Hachoir.Props.C50_pascal_bom",
    "Hachoir.Props.C50_truncate",
    "Hachoir.Props.C50_strip"
   ],
   "note": "Fixed strings, truncation and stripping proved in full; Pascal strings proved unless the charset is found through a BOM, which is refuted (C50_pascal_bom)."
  },
  {
   "property": "C51",
   "status": "proved",
   "theorems": [
    "Hachoir.Props.C51_lines",
    "Hachoir.Props.C51_no_return",
    "Hachoir.Props.C51_no_blank",
    "Hachoir.Props.C51_unchanged",
    "Hachoir.Props.C51_begin",
    "Hachoir.Props.C51_end"
   ],
   "note": "All texts."
  },
  {
   "property": "C52",
   "status": "partial",
   "theorems": [
    "Hachoir.Props.C52_names",
    "Hachoir.Props.C52_dictionary",
    "Hachoir.Props.C52_reachable",
    "Hachoir.Props.C52_complete_partial",
    "Hachoir.Props.C52_lost",
    "Hachoir.Props.C52_never_none"
   ],
   "note": "Names, order and values agree when each key has at most one value; with several values only the last is kept (C52_lost) and the result is never empty (C52_never_none)."
  },
  {
   "property": "C53",
   "status": "partial",
   "theorems": [
    "Hachoir.Props.C53_groups",
    "Hachoir.Props.C53_all_kept",
    "Hachoir.Props.C53_plaintext",
    "Hachoir.Props.C53_dictionary_lost",
    "Hachoir.Props.C53_clash"
   ],
   "note": "Names, order and results of addGroup for all histories, plain text export complete; exportDictionary loses groups with the same header (C53_dictionary_lost); a name given by hand can make a numbered group be refused (C53_clash)."
  },
  {
   "property": "C54",
   "status": "partial",
   "theorems": [
    "Hachoir.Props.C54_midi",
    "Hachoir.Props.C54_cword",
    "Hachoir.Props.C54_oid",
    "Hachoir.Props.C54_instance",
    "Hachoir.Props.C54_flash",
    "Hachoir.Props.C54_flash_signed",
    "Hachoir.Props.C54_flash_too_wide",
    "Hachoir.Props.C54_uintVbe",
    "Hachoir.Props.C54_intVbe",
    "Hachoir.Props.C54_git",
    "Hachoir.Props.C54_git_type",
    "Hachoir.Props.C54_git_offset_wrong",
    "Hachoir.Props.C54_id3",
    "Hachoir.Props.C54_number_be",
    "Hachoir.Props.C54_number_le"
   ],
   "note": "Exact value, exact extent, refusal and end of data for every format, and reading back of every number; the width clause fails for SWF (C54_flash_too_wide), and the base offset of a git delta is read with the wrong encoding (C54_git_offset_wrong)."
  },
  {
   "property": "C55",
   "status": "proved",
   "theorems": [
    "Hachoir.Props.C55_sevenzip",
    "Hachoir.Props.C55_sevenzip_total",
    "Hachoir.Props.C55_sevenzip_number",
    "Hachoir.Props.C55_matroska",
    "Hachoir.Props.C55_matroska_total",
    "Hachoir.Props.C55_asn1",
    "Hachoir.Props.C55_xiph",
    "Hachoir.Props.C55_lacing",
    "Hachoir.Props.C55_lacing_total"
   ],
   "note": "For all contents and addresses; the data are a byte string behind StringInputStream."
  },
  {
   "property": "C56",
   "status": "partial",
   "theorems": [
    "Hachoir.Props.C56_instructions_partial",
    "Hachoir.Props.C56_copy_wrong",
    "Hachoir.Props.C56_size_zero_wrong"
   ],
   "note": "Extents, kinds and inserted bytes for all deltas; offsets and sizes of copies when at most one byte of each is stored. The code disagrees with git otherwise (C56_copy_wrong, C56_size_zero_wrong)."
  },
  {
   "property": "C57",
   "status": "partial",
   "theorems": [
    "Hachoir.Props.C57_chain",
    "Hachoir.Props.C57_fragments",
    "Hachoir.Props.C57_big_stream",
    "Hachoir.Props.C57_small_stream",
    "Hachoir.Props.C57_one_place",
    "Hachoir.Props.C57_sector_place",
    "Hachoir.Props.C57_no_small_table"
   ],
   "note": "Chains, fragments and joined data for all tables; the place of a block is right only for 512 byte sectors (C57_sector_place), and a missing small table is silently replaced by the big one (C57_no_small_table)."
  },
  {
   "property": "C58",
   "status": "partial",
   "theorems": [
    "Hachoir.Props.C58_value",
    "Hachoir.Props.C58_file",
    "Hachoir.Props.C58_int64",
    "Hachoir.Props.C58_long_string_no_value",
    "Hachoir.Props.C58_lenient",
    "Hachoir.Props.C58_int_text"
   ],
   "note": "Exact for all nested values within the limits; empty strings and strings of 512 bytes or more have no value (C58_long_string_no_value) and non-canonical numbers are accepted (C58_lenient)."
  },
  {
   "property": "C59",
   "status": "partial",
   "theorems": [
    "Hachoir.Props.C59_decode_partial",
    "Hachoir.Props.C59_pixels_partial",
    "Hachoir.Props.C59_clear_disagrees",
    "Hachoir.Props.C59_unknown_code_disagrees",
    "Hachoir.Props.C59_full_table_disagrees"
   ],
   "note": "Proved for pictures whose table does not fill up and clear codes not sent at a growth of the code size; both excluded cases are proved to be misread."
  },
  {
   "property": "C60",
   "status": "proved",
   "theorems": [
    "Hachoir.Props.C60_rleRepr",
    "Hachoir.Props.C60_unambiguous",
    "Hachoir.Props.C60_injective"
   ],
   "note": "Complete for lists of integers (nested lists are never passed)."
  },
  {
   "property": "C61",
   "status": "proved",
   "theorems": [
    "Hachoir.Props.C61_timedelta",
    "Hachoir.Props.C61_duration",
    "Hachoir.Props.C61_overflow",
    "Hachoir.Props.C61_short",
    "Hachoir.Props.C61_negative"
   ],
   "note": "Every duration; the loop of divmods is compared with the successive remainders, cutting to three parts included."
  },
  {
   "property": "C62",
   "status": "proved",
   "theorems": [
    "Hachoir.Props.C62_filesize_small",
    "Hachoir.Props.C62_filesize",
    "Hachoir.Props.C62_bitsize",
    "Hachoir.Props.C62_bitrate",
    "Hachoir.Props.C62_frequency",
    "Hachoir.Props.C62_filesize_exact",
    "Hachoir.Props.C62_rounded_up"
   ],
   "note": "Every size: error bound of the float divisions over the rationals; exact rounding below 1024 TB. repr of a float (frequencies from 1000 THz) is a parameter."
  },
  {
   "property": "C63",
   "status": "proved",
   "theorems": [
    "Hachoir.Props.C63_hexadecimal",
    "Hachoir.Props.C63_injective",
    "Hachoir.Props.C63_negative"
   ],
   "note": "Values that fit the field; C63_negative shows how negative values come out."
  },
  {
   "property": "C64",
   "status": "proved",
   "theorems": [
    "Hachoir.Props.C64_letters",
    "Hachoir.Props.C64_injective"
   ],
   "note": "Every mode."
  },
  {
   "property": "C65",
   "status": "partial",
   "theorems": [
    "Hachoir.Props.C65_padding_bytes",
    "Hachoir.Props.C65_null_bytes_partial",
    "Hachoir.Props.C65_null_bytes_long",
    "Hachoir.Props.C65_null_but_not_zero",
    "Hachoir.Props.C65_pattern_cut",
    "Hachoir.Props.C65_empty_pattern",
    "Hachoir.Props.C65_null_bits",
    "Hachoir.Props.C65_bits_other_pattern"
   ],
   "note": "Exact characterisation: only the first 4096 bytes (128 bits) are compared, so the property holds up to that size; witnesses for longer fields, cut and empty patterns."
  },
  {
   "property": "C66",
   "status": "partial",
   "theorems": [
    "Hachoir.Props.C66_numeric",
    "Hachoir.Props.C66_first",
    "Hachoir.Props.C66_unique",
    "Hachoir.Props.C66_roundtrip",
    "Hachoir.Props.C66_date_roundtrip",
    "Hachoir.Props.C66_not_read_back",
    "Hachoir.Props.C66_zone_lost"
   ],
   "note": "Numeric forms: exact characterisation. Round trip for times without time zone, microseconds dropped; with a time zone or microseconds kept the round trip fails (witnesses). strptime branches not modelled."
  },
  {
   "property": "C67",
   "status": "partial",
   "theorems": [
    "Hachoir.Props.C67_decompress_partial",
    "Hachoir.Props.C67_noJump_partial",
    "Hachoir.Props.C67_length_partial"
   ],
   "note": "All block types and encodings, any window. Missing: files in which a block begins at the end of a frame (the code aligns at the wrong place there, hypothesis Apart)."
  },
  {
   "property": "C68",
   "status": "partial",
   "theorems": [
    "Hachoir.Props.C68_relative_partial",
    "Hachoir.Props.C68_restored_partial",
    "Hachoir.Props.C68_shortFrame",
    "Hachoir.Props.C68_shortFrame_error",
    "Hachoir.Props.C68_blockEnd",
    "Hachoir.Props.C68_copiedJump"
   ],
   "note": "Output is the whole translation when the ends of blocks are Calm; the other cases are wrong in the code, four witnesses. Missing: sizes from 2 GiB on."
  },
  {
   "property": "C69",
   "status": "proved",
   "theorems": [
    "Hachoir.Props.C69_ascii",
    "Hachoir.Props.C69_utf8",
    "Hachoir.Props.C69_utf16",
    "Hachoir.Props.C69_sets",
    "Hachoir.Props.C69_decodes",
    "Hachoir.Props.C69_markUnchecked"
   ],
   "note": "Full decision table; UTF-8 validity against the encoding of RFC 3629. The mark of UTF-8/UTF-16 is not checked against the rest (witness)."
  },
  {
   "property": "C70",
   "status": "partial",
   "theorems": [
    "Hachoir.Props.C70_utf8",
    "Hachoir.Props.C70_utf16",
    "Hachoir.Props.C70_truncated",
    "Hachoir.Props.C70_fallback",
    "Hachoir.Props.C70_fallback16",
    "Hachoir.Props.C70_guessed_partial",
    "Hachoir.Props.C70_unknown",
    "Hachoir.Props.C70_markKept",
    "Hachoir.Props.C70_accident"
   ],
   "note": "UTF-8 and UTF-16 for all texts, the fallback for all bytes; guessed 8 bit charsets for texts of the characters that are looked for. A mark stays in the value, accidental UTF-8 (witnesses)."
  },
  {
   "property": "C71",
   "status": "proved",
   "theorems": [
    "Hachoir.Props.C71_riff",
    "Hachoir.Props.C71_index",
    "Hachoir.Props.C71_flagLost"
   ],
   "note": "For all trees with right size fields. The index flag is not saved when there is no index chunk (witness)."
  },
  {
   "property": "C72",
   "status": "partial",
   "theorems": [
    "Hachoir.Props.C72_png",
    "Hachoir.Props.C72_jpeg",
    "Hachoir.Props.C72_mpeg",
    "Hachoir.Props.C72_au",
    "Hachoir.Props.C72_auKept",
    "Hachoir.Props.C72_tar"
   ],
   "note": "PNG, JPEG, MPEG audio and AU in full; tar stripping always fails (negation proved)."
  },
  {
   "property": "C73",
   "status": "proved",
   "theorems": [
    "Hachoir.Props.C73_block",
    "Hachoir.Props.C73_any",
    "Hachoir.Props.C73_badSelector"
   ],
   "note": "For all valid blocks; that a selector behind the last table is accepted is proved apart."
  },
  {
   "property": "C74",
   "status": "proved",
   "theorems": [
    "Hachoir.Props.C74_stream"
   ],
   "note": "For all lists of valid blocks."
  },
  {
   "property": "C75",
   "status": "proved",
   "theorems": [
    "Hachoir.Props.C75_seek",
    "Hachoir.Props.C75_next"
   ],
   "note": "For all addresses up to 2^67 bits ahead and all states of the field set."
  },
  {
   "property": "C76",
   "status": "partial",
   "theorems": [
    "Hachoir.Props.C76_kept",
    "Hachoir.Props.C76_grown",
    "Hachoir.Props.C76_covered",
    "Hachoir.Props.C76_far",
    "Hachoir.Props.C76_lost"
   ],
   "note": "All fields kept and no holes when the fields and the last position lie inside; no holes for any moves when no exception is raised. A seek behind the end deletes other fields or ends with IndexError (proved)."
  },
  {
   "property": "C77",
   "status": "partial",
   "theorems": [
    "Hachoir.Props.C77_any",
    "Hachoir.Props.C77_runs_partial",
    "Hachoir.Props.C77_writable",
    "Hachoir.Props.C77_hole"
   ],
   "note": "Exact for all bytes (iff); the runs are told right for lists without holes. Holes of sparse files are shown wrong (proved)."
  },
  {
   "property": "C78",
   "status": "partial",
   "theorems": [
    "Hachoir.Props.C78_objects_partial",
    "Hachoir.Props.C78_set",
    "Hachoir.Props.C78_bigTag"
   ],
   "note": "All trees whose sets have at most one member. Sets of several members lose all but the first; high tag numbers are misread (both proved)."
  },
  {
   "property": "C79",
   "status": "partial",
   "theorems": [
    "Hachoir.Props.C79_oid_partial",
    "Hachoir.Props.C79_second"
   ],
   "note": "All identifiers whose second number is below 40. Larger second numbers are shown wrong (proved)."
  },
  {
   "property": "C80",
   "status": "partial",
   "theorems": [
    "Hachoir.Props.C80_utc_partial",
    "Hachoir.Props.C80_other",
    "Hachoir.Props.C80_offset"
   ],
   "note": "All times with seconds in Universal Time. What happens with the other forms is proved for all times; it is wrong."
  },
  {
   "property": "C81",
   "status": "proved",
   "theorems": [
    "Hachoir.Props.C81_events",
    "Hachoir.Props.C81_unknown"
   ],
   "note": "All programs."
  },
  {
   "property": "C82",
   "status": "partial",
   "theorems": [
    "Hachoir.Props.C82_sizes_partial",
    "Hachoir.Props.C82_derived",
    "Hachoir.Props.C82_sameName"
   ],
   "note": "All orders of instantiation of classes with own names whose parts are not derived classes. Otherwise sizes are wrong (proved), and a vector before the first instance fails."
  },
  {
   "property": "C83",
   "status": "proved",
   "theorems": [
    "Hachoir.Props.C83_ipv4",
    "Hachoir.Props.C83_mac",
    "Hachoir.Props.C83_ipv6"
   ],
   "note": "All addresses."
  },
  {
   "property": "C84",
   "status": "partial",
   "theorems": [
    "Hachoir.Props.C84_text",
    "Hachoir.Props.C84_fields",
    "Hachoir.Props.C84_injective",
    "Hachoir.Props.C84_variant"
   ],
   "note": "Text, injectivity and version for all GUIDs; the variant is wrong (proved)."
  },
  {
   "property": "C85",
   "status": "partial",
   "theorems": [
    "Hachoir.Props.C85_values_partial",
    "Hachoir.Props.C85_before"
   ],
   "note": "All directories whose values outside of the entries lie behind the beginning of the directory. For the others the loss of values is proved."
  },
  {
   "property": "C86",
   "status": "partial",
   "theorems": [
    "Hachoir.Props.C86_found",
    "Hachoir.Props.C86_endless",
    "Hachoir.Props.C86_header"
   ],
   "note": "The search ends without an error iff the links are well-founded and readable, and finds exactly what can be reached; on cycles it never ends (proved)."
  },
  {
   "property": "C87",
   "status": "partial",
   "theorems": [
    "Hachoir.Props.C87_parts",
    "Hachoir.Props.C87_float80_exact",
    "Hachoir.Props.C87_float80_near",
    "Hachoir.Props.C87_integers",
    "Hachoir.Props.C87_float80_big",
    "Hachoir.Props.C87_float80_small",
    "Hachoir.Props.C87_little",
    "Hachoir.Props.C87_unnormal"
   ],
   "note": "Big endian; the value of 32 and 64 bit numbers comes from `struct.unpack` and is not modelled. Numbers with exponents between -1074 and -1023 are modelled, their rounding is not stated. Little endian is proved wrong."
  },
  {
   "property": "C88",
   "status": "partial",
   "theorems": [
    "Hachoir.Props.C88_field",
    "Hachoir.Props.C88_field_only",
    "Hachoir.Props.C88_unclosed",
    "Hachoir.Props.C88_method",
    "Hachoir.Props.C88_method_only",
    "Hachoir.Props.C88_steps",
    "Hachoir.Props.C88_any"
   ],
   "note": "All descriptors, and nothing else is accepted but classes without their semicolon, which is proved wrong."
  },
  {
   "property": "C89",
   "status": "proved",
   "theorems": [
    "Hachoir.Props.C89_read",
    "Hachoir.Props.C89_entry",
    "Hachoir.Props.C89_text"
   ],
   "note": "All constants; the conversion from UTF-8 and the text of floating point numbers are parameters."
  },
  {
   "property": "C90",
   "status": "proved",
   "theorems": [
    "Hachoir.Props.C90_code"
   ],
   "note": "All sequences of instructions. Code that ends within an instruction is not regarded; the texts of operands are not modelled."
  },
  {
   "property": "C91",
   "status": "partial",
   "theorems": [
    "Hachoir.Props.C91_entry",
    "Hachoir.Props.C91_partitions",
    "Hachoir.Props.C91_path",
    "Hachoir.Props.C91_third_drive",
    "Hachoir.Props.C91_accepted"
   ],
   "note": "All disks; logical drives behind the second one are misplaced by the code (proved)."
  },
  {
   "property": "C92",
   "status": "proved",
   "theorems": [
    "Hachoir.Props.C92_size",
    "Hachoir.Props.C92_frames",
    "Hachoir.Props.C92_sync",
    "Hachoir.Props.C92_file"
   ],
   "note": "All headers and sequences of frames; free format is refused by the code. Tags and the first five frames looked at by validate are not modelled."
  },
  {
   "property": "C93",
   "status": "proved",
   "theorems": [
    "Hachoir.Props.C93_atoms",
    "Hachoir.Props.C93_containers"
   ],
   "note": "All trees. What happens with atoms that do not fit into their parent is not regarded; the handlers of single atoms are not modelled."
  },
  {
   "property": "C94",
   "status": "proved",
   "theorems": [
    "Hachoir.Props.C94_image",
    "Hachoir.Props.C94_no_marker",
    "Hachoir.Props.C94_parts"
   ],
   "note": "All files within the 100 MiB limit of the search. Contents of the chunks are other properties (Exif: C88)."
  },
  {
   "property": "C95",
   "status": "partial",
   "theorems": [
    "Hachoir.Props.C95_code",
    "Hachoir.Props.C95_block_partial",
    "Hachoir.Props.C95_table",
    "Hachoir.Props.C95_two_stuffed",
    "Hachoir.Props.C95_extra_stuffed"
   ],
   "note": "Tables and codes for all data; blocks if no stuffed byte is inside the extra bits. The code violates the property for those (proved)."
  },
  {
   "property": "C96",
   "status": "partial",
   "theorems": [
    "Hachoir.Props.C96_open_inside",
    "Hachoir.Props.C96_elements",
    "Hachoir.Props.C96_file",
    "Hachoir.Props.C96_lace",
    "Hachoir.Props.C96_single",
    "Hachoir.Props.C96_block"
   ],
   "note": "All trees of elements; laces of two or more frames. The code violates the property for an EBML lace of one frame (proved)."
  },
  {
   "property": "C97",
   "status": "partial",
   "theorems": [
    "Hachoir.Props.C97_fat12",
    "Hachoir.Props.C97_fat",
    "Hachoir.Props.C97_meaning",
    "Hachoir.Props.C97_unused_bits",
    "Hachoir.Props.C97_chain",
    "Hachoir.Props.C97_access",
    "Hachoir.Props.C97_access_none",
    "Hachoir.Props.C97_modify",
    "Hachoir.Props.C97_create"
   ],
   "note": "Tables, meanings and dates for all inputs. The clusters of a file are never found (proved)."
  },
  {
   "property": "C98",
   "status": "partial",
   "theorems": [
    "Hachoir.Props.C98_page",
    "Hachoir.Props.C98_pages",
    "Hachoir.Props.C98_stream_partial",
    "Hachoir.Props.C98_stream_cut",
    "Hachoir.Props.C98_packets",
    "Hachoir.Props.C98_packets_fail"
   ],
   "note": "Pages for all inputs; streams if every page has data. Packets are never listed completely (proved)."
  },
  {
   "property": "C99",
   "status": "partial",
   "theorems": [
    "Hachoir.Props.C99_chunk",
    "Hachoir.Props.C99_chunks",
    "Hachoir.Props.C99_too_big",
    "Hachoir.Props.C99_header",
    "Hachoir.Props.C99_time",
    "Hachoir.Props.C99_format_partial",
    "Hachoir.Props.C99_grey",
    "Hachoir.Props.C99_colors",
    "Hachoir.Props.C99_content_size",
    "Hachoir.Props.C99_no_end",
    "Hachoir.Props.C99_content_cut"
   ],
   "note": "Chunks, headers and times for all inputs; the format for pictures that are not grey, the content size if no other chunk holds the end mark. Both gaps are violations (proved)."
  },
  {
   "property": "C100",
   "status": "partial",
   "theorems": [
    "Hachoir.Props.C100_octal",
    "Hachoir.Props.C100_octal_other",
    "Hachoir.Props.C100_entry",
    "Hachoir.Props.C100_entries",
    "Hachoir.Props.C100_entries_end",
    "Hachoir.Props.C100_content_size",
    "Hachoir.Props.C100_no_terminator",
    "Hachoir.Props.C100_big_size",
    "Hachoir.Props.C100_validate",
    "Hachoir.Props.C100_described",
    "Hachoir.Props.C100_prefix_lost",
    "Hachoir.Props.C100_no_file"
   ],
   "note": "All archives with octal sizes. Sizes in base 256 and the prefix of names are violations (proved)."
  },
  {
   "property": "C101",
   "status": "partial",
   "theorems": [
    "Hachoir.Props.C101_file",
    "Hachoir.Props.C101_entry",
    "Hachoir.Props.C101_end",
    "Hachoir.Props.C101_record",
    "Hachoir.Props.C101_next",
    "Hachoir.Props.C101_no_next",
    "Hachoir.Props.C101_archive",
    "Hachoir.Props.C101_no_records",
    "Hachoir.Props.C101_extras",
    "Hachoir.Props.C101_content_size_partial",
    "Hachoir.Props.C101_comment_cut",
    "Hachoir.Props.C101_piped",
    "Hachoir.Props.C101_marked_descriptor",
    "Hachoir.Props.C101_zip64",
    "Hachoir.Props.C101_resync",
    "Hachoir.Props.C101_resync_empty",
    "Hachoir.Props.C101_spanning"
   ],
   "note": "All archives whose files tell their sizes in the header, without ZIP64 end record. Archives written to a pipe, marked descriptors, ZIP64 and archive comments are violations (proved)."
  },
  {
   "property": "C102",
   "status": "partial",
   "theorems": [
    "Hachoir.Props.C102_header",
    "Hachoir.Props.C102_archive",
    "Hachoir.Props.C102_valid",
    "Hachoir.Props.C102_metadata",
    "Hachoir.Props.C102_empty_extra"
   ],
   "note": "All archives without empty extra field; that one is a violation (proved)."
  },
  {
   "property": "C103",
   "status": "partial",
   "theorems": [
    "Hachoir.Props.C103_entry",
    "Hachoir.Props.C103_archive",
    "Hachoir.Props.C103_big_file",
    "Hachoir.Props.C103_two_words",
    "Hachoir.Props.C103_valid"
   ],
   "note": "All archives whose files have sizes of at most nine digits; for ten digits the mode is taken as size (proved)."
  },
  {
   "property": "C104",
   "status": "partial",
   "theorems": [
    "Hachoir.Props.C104_track",
    "Hachoir.Props.C104_plain",
    "Hachoir.Props.C104_classical",
    "Hachoir.Props.C104_long_comment",
    "Hachoir.Props.C104_signature"
   ],
   "note": "Tags with track number and tags whose comment ends with NUL; genre 32 and comments of 30 characters are violations (proved)."
  },
  {
   "property": "C105",
   "status": "partial",
   "theorems": [
    "Hachoir.Props.C105_frame",
    "Hachoir.Props.C105_tag",
    "Hachoir.Props.C105_text_shown",
    "Hachoir.Props.C105_comment_shown",
    "Hachoir.Props.C105_nothing_else",
    "Hachoir.Props.C105_extended",
    "Hachoir.Props.C105_picture",
    "Hachoir.Props.C105_url",
    "Hachoir.Props.C105_long_text",
    "Hachoir.Props.C105_compressed24"
   ],
   "note": "Tags without extended header and frames without format flags, texts up to 65535 bytes, titles in ISO-8859-1, UTF-8 and UTF-16 with byte order mark; violations for extended headers, pictures, URLs, long texts and flags of version 2.4 (proved)."
  },
  {
   "property": "C106",
   "status": "partial",
   "theorems": [
    "Hachoir.Props.C106_file",
    "Hachoir.Props.C106_valid",
    "Hachoir.Props.C106_empty_last",
    "Hachoir.Props.C106_text",
    "Hachoir.Props.C106_info"
   ],
   "note": "All files in which no list ends with an empty chunk; for those a violation is proved. Chunks that do not fit in their parent are not covered."
  },
  {
   "property": "C107",
   "status": "partial",
   "theorems": [
    "Hachoir.Props.C107_pcm",
    "Hachoir.Props.C107_fact",
    "Hachoir.Props.C107_extensible",
    "Hachoir.Props.C107_no_format"
   ],
   "note": "Codecs 1, 3 and 6, and all codecs with fact chunk; the extended format is a violation (proved). Durations as fractions; rounding by float and timedelta is not modelled."
  },
  {
   "property": "C108",
   "status": "partial",
   "theorems": [
    "Hachoir.Props.C108_event",
    "Hachoir.Props.C108_commands",
    "Hachoir.Props.C108_track",
    "Hachoir.Props.C108_refused",
    "Hachoir.Props.C108_file",
    "Hachoir.Props.C108_sysex",
    "Hachoir.Props.C108_running_after_meta",
    "Hachoir.Props.C108_size_ignored"
   ],
   "note": "All channel messages and meta events of standard length, all encodings; system exclusive messages and events of other lengths are violations (proved)."
  },
  {
   "property": "C109",
   "status": "partial",
   "theorems": [
    "Hachoir.Props.C109_first",
    "Hachoir.Props.C109_size_partial",
    "Hachoir.Props.C109_delta_time",
    "Hachoir.Props.C109_no_track"
   ],
   "note": "Exactly the first occurrence of FF 2F 00 from the last track on; right if this is the end of the track, a violation otherwise (proved with a correct file)."
  },
  {
   "property": "C110",
   "status": "partial",
   "theorems": [
    "Hachoir.Props.C110_named_partial",
    "Hachoir.Props.C110_wrong",
    "Hachoir.Props.C110_last"
   ],
   "note": "Right for the first nine notes of all ten octaves, wrong for all others (proved for the whole table)."
  },
  {
   "property": "C111",
   "status": "partial",
   "theorems": [
    "Hachoir.Props.C111_value",
    "Hachoir.Props.C111_injective",
    "Hachoir.Props.C111_unknown",
    "Hachoir.Props.C111_hint"
   ],
   "note": "All values of the types that the parser knows whose hints are large enough; other types and smaller hints are violations (proved)."
  },
  {
   "property": "C112",
   "status": "partial",
   "theorems": [
    "Hachoir.Props.C112_tag",
    "Hachoir.Props.C112_long_time",
    "Hachoir.Props.C112_refused",
    "Hachoir.Props.C112_file"
   ],
   "note": "All files with times below 2^24 ms; above a violation is proved. MP3 frames inside of tags are not covered."
  },
  {
   "property": "C113",
   "status": "partial",
   "theorems": [
    "Hachoir.Props.C113_audio",
    "Hachoir.Props.C113_values",
    "Hachoir.Props.C113_object"
   ],
   "note": "All arrays with keys; objects are a violation (proved). Filters on the values are not covered here."
  },
  {
   "property": "C114",
   "status": "partial",
   "theorems": [
    "Hachoir.Props.C114_blocks",
    "Hachoir.Props.C114_info",
    "Hachoir.Props.C114_points",
    "Hachoir.Props.C114_file_partial",
    "Hachoir.Props.C114_lone"
   ],
   "note": "All files with two or more blocks; a lone stream info is refused (proved)."
  },
  {
   "property": "C115",
   "status": "partial",
   "theorems": [
    "Hachoir.Props.C115_comment",
    "Hachoir.Props.C115_framing",
    "Hachoir.Props.C115_told",
    "Hachoir.Props.C115_case",
    "Hachoir.Props.C115_file",
    "Hachoir.Props.C115_rate"
   ],
   "note": "All stream infos and comments with ASCII names; rates above 192000 are not told (proved)."
  },
  {
   "property": "C116",
   "status": "partial",
   "theorems": [
    "Hachoir.Props.C116_file",
    "Hachoir.Props.C116_duration",
    "Hachoir.Props.C116_told",
    "Hachoir.Props.C116_unknown",
    "Hachoir.Props.C116_channels",
    "Hachoir.Props.C116_long_info"
   ],
   "note": "All files of known size with one or two channels; the others are violations (proved)."
  },
  {
   "property": "C117",
   "status": "partial",
   "theorems": [
    "Hachoir.Props.C117_chunks",
    "Hachoir.Props.C117_file",
    "Hachoir.Props.C117_content_size",
    "Hachoir.Props.C117_told",
    "Hachoir.Props.C117_padding"
   ],
   "note": "All chunks, rates that are whole numbers; the content size is a violation (proved)."
  },
  {
   "property": "C118",
   "status": "partial",
   "theorems": [
    "Hachoir.Props.C118_items",
    "Hachoir.Props.C118_file_partial",
    "Hachoir.Props.C118_wide",
    "Hachoir.Props.C118_loop",
    "Hachoir.Props.C118_valid"
   ],
   "note": "All files of up to 6000 by 6000 pixels; larger ones are refused (proved)."
  },
  {
   "property": "C119",
   "status": "partial",
   "theorems": [
    "Hachoir.Props.C119_size_partial",
    "Hachoir.Props.C119_single",
    "Hachoir.Props.C119_told",
    "Hachoir.Props.C119_long_comment",
    "Hachoir.Props.C119_transparency"
   ],
   "note": "Content size when the first \"\\0;\" behind the first image is the end; the rest, and transparency, are violations (proved)."
  },
  {
   "property": "C120",
   "status": "partial",
   "theorems": [
    "Hachoir.Props.C120_file",
    "Hachoir.Props.C120_core",
    "Hachoir.Props.C120_told",
    "Hachoir.Props.C120_colors",
    "Hachoir.Props.C120_dpi",
    "Hachoir.Props.C120_valid"
   ],
   "note": "All bitmaps of version 3 and 4; the violations for the old header, colors and resolution are proved."
  },
  {
   "property": "C121",
   "status": "partial",
   "theorems": [
    "Hachoir.Props.C121_pixels",
    "Hachoir.Props.C121_nibbles",
    "Hachoir.Props.C121_colors"
   ],
   "note": "Pixels of 8, 24 and 32 bits as numbers; the orders of 4-bit pixels and of the colors are violations (proved)."
  },
  {
   "property": "C122",
   "status": "partial",
   "theorems": [
    "Hachoir.Props.C122_file",
    "Hachoir.Props.C122_valid",
    "Hachoir.Props.C122_monochrome",
    "Hachoir.Props.C122_cursor",
    "Hachoir.Props.C122_told",
    "Hachoir.Props.C122_big"
   ],
   "note": "All files; what is refused and not told wrongly is proved as violation."
  },
  {
   "property": "C123",
   "status": "partial",
   "theorems": [
    "Hachoir.Props.C123_no_pixels",
    "Hachoir.Props.C123_file",
    "Hachoir.Props.C123_palette",
    "Hachoir.Props.C123_told",
    "Hachoir.Props.C123_window",
    "Hachoir.Props.C123_planes",
    "Hachoir.Props.C123_marker"
   ],
   "note": "All pictures at (0, 0) with one plane; the rest are violations (proved)."
  },
  {
   "property": "C124",
   "status": "partial",
   "theorems": [
    "Hachoir.Props.C124_file_partial",
    "Hachoir.Props.C124_palette",
    "Hachoir.Props.C124_small_palette",
    "Hachoir.Props.C124_told"
   ],
   "note": "All pictures without palette or with 256 colors of 8 bits; smaller palettes are a violation (proved)."
  },
  {
   "property": "C125",
   "status": "partial",
   "theorems": [
    "Hachoir.Props.C125_streams",
    "Hachoir.Props.C125_external",
    "Hachoir.Props.C125_digests_partial",
    "Hachoir.Props.C125_digests_lost"
   ],
   "note": "All streams; external folders and digests of only some folders are violations (proved)."
  },
  {
   "property": "C126",
   "status": "partial",
   "theorems": [
    "Hachoir.Props.C126_files",
    "Hachoir.Props.C126_name_cut"
   ],
   "note": "All properties; names are free of characters whose low byte is 0, the rest is a violation (proved)."
  },
  {
   "property": "C127",
   "status": "partial",
   "theorems": [
    "Hachoir.Props.C127_archive",
    "Hachoir.Props.C127_size",
    "Hachoir.Props.C127_body",
    "Hachoir.Props.C127_nothing_packed"
   ],
   "note": "All archives with packed data; without is a violation (proved). Decompression of a packed header is not modelled."
  },
  {
   "property": "C128",
   "status": "partial",
   "theorems": [
    "Hachoir.Props.C128_line_table",
    "Hachoir.Props.C128_layout_partial",
    "Hachoir.Props.C128_python20",
    "Hachoir.Props.C128_object_partial",
    "Hachoir.Props.C128_long_text"
   ],
   "note": "All objects of all versions; Python 2.0 and long ASCII texts are violations (proved)."
  },
  {
   "property": "C129",
   "status": "partial",
   "theorems": [
    "Hachoir.Props.C129_interned",
    "Hachoir.Props.C129_value_partial",
    "Hachoir.Props.C129_empty"
   ],
   "note": "All objects without empty texts, which are a violation (proved). Objects that contain themselves are left out."
  },
  {
   "property": "C130",
   "status": "partial",
   "theorems": [
    "Hachoir.Props.C130_minor",
    "Hachoir.Props.C130_order",
    "Hachoir.Props.C130_header_partial",
    "Hachoir.Props.C130_file_partial",
    "Hachoir.Props.C130_unknown",
    "Hachoir.Props.C130_size3200"
   ],
   "note": "All magic numbers except those of Python 2.0 and 3200, which are violations (proved)."
  },
  {
   "property": "C131",
   "status": "partial",
   "theorems": [
    "Hachoir.Props.C131_microsoft",
    "Hachoir.Props.C131_mozilla_partial",
    "Hachoir.Props.C131_mozilla_empty",
    "Hachoir.Props.C131_starfighter_partial",
    "Hachoir.Props.C131_starfighter_empty"
   ],
   "note": "All archives; empty files in Mozilla and Starfighter archives are violations (proved)."
  },
  {
   "property": "C132",
   "status": "partial",
   "theorems": [
    "Hachoir.Props.C132_lists",
    "Hachoir.Props.C132_data",
    "Hachoir.Props.C132_valid",
    "Hachoir.Props.C132_files_lost",
    "Hachoir.Props.C132_content_lost",
    "Hachoir.Props.C132_name_charset"
   ],
   "note": "All headers, lists and blocks; contents and files of folders are violations (proved). Every folder has a block; the list of files follows the list of folders."
  },
  {
   "property": "C133",
   "status": "partial",
   "theorems": [
    "Hachoir.Props.C133_set_partial",
    "Hachoir.Props.C133_few",
    "Hachoir.Props.C133_package_partial",
    "Hachoir.Props.C133_filled",
    "Hachoir.Props.C133_valid"
   ],
   "note": "All sets of at least two items; the size is right if the second is the first in the store. Other sets and first sets whose size is no multiple of 8 are violations (proved)."
  },
  {
   "property": "C134",
   "status": "partial",
   "theorems": [
    "Hachoir.Props.C134_object",
    "Hachoir.Props.C134_file_partial",
    "Hachoir.Props.C134_ref",
    "Hachoir.Props.C134_empty_dict",
    "Hachoir.Props.C134_long_text",
    "Hachoir.Props.C134_set"
   ],
   "note": "All objects but empty dictionaries, long texts and sets, which are violations (proved)."
  },
  {
   "property": "C135",
   "status": "partial",
   "theorems": [
    "Hachoir.Props.C135_timestamp_wrong",
    "Hachoir.Props.C135_capture_partial",
    "Hachoir.Props.C135_unknown",
    "Hachoir.Props.C135_fragment",
    "Hachoir.Props.C135_end_of_options",
    "Hachoir.Props.C135_timestamp"
   ],
   "note": "All captures; later fragments, the end of TCP options and times are violations (proved)."
  },
  {
   "property": "C136",
   "status": "partial",
   "theorems": [
    "Hachoir.Props.C136_file_partial",
    "Hachoir.Props.C136_phoff",
    "Hachoir.Props.C136_valid",
    "Hachoir.Props.C136_name"
   ],
   "note": "All ELF files whose headers of segments are right behind the header; others are a violation (proved)."
  },
  {
   "property": "C137",
   "status": "partial",
   "theorems": [
    "Hachoir.Props.C137_dll",
    "Hachoir.Props.C137_portable",
    "Hachoir.Props.C137_new",
    "Hachoir.Props.C137_dos",
    "Hachoir.Props.C137_rva",
    "Hachoir.Props.C137_size",
    "Hachoir.Props.C137_dos_size_partial",
    "Hachoir.Props.C137_dos_size_wrong",
    "Hachoir.Props.C137_valid"
   ],
   "note": "All programs; the size of MS-DOS programs that end with a full block is a violation (proved)."
  },
  {
   "property": "C138",
   "status": "partial",
   "theorems": [
    "Hachoir.Props.C138_file",
    "Hachoir.Props.C138_fat",
    "Hachoir.Props.C138_fat_valid",
    "Hachoir.Props.C138_no_data"
   ],
   "note": "All programs; unknown commands without data are refused (proved)."
  },
  {
   "property": "C139",
   "status": "proved",
   "theorems": [
    "Hachoir.Props.C139_archive",
    "Hachoir.Props.C139_open",
    "Hachoir.Props.C139_empty",
    "Hachoir.Props.C139_magic"
   ],
   "note": "All archives."
  },
  {
   "property": "C140",
   "status": "partial",
   "theorems": [
    "Hachoir.Props.C140_disc_partial",
    "Hachoir.Props.C140_size",
    "Hachoir.Props.C140_path",
    "Hachoir.Props.C140_swap",
    "Hachoir.Props.C140_page_count",
    "Hachoir.Props.C140_swap_valid"
   ],
   "note": "All discs and swap files; sizes in both byte orders, little endian path tables and the number of pages are violations (proved)."
  },
  {
   "property": "C141",
   "status": "partial",
   "theorems": [
    "Hachoir.Props.C141_channels",
    "Hachoir.Props.C141_header",
    "Hachoir.Props.C141_no_music",
    "Hachoir.Props.C141_pattern_count",
    "Hachoir.Props.C141_music_partial",
    "Hachoir.Props.C141_tune_partial",
    "Hachoir.Props.C141_tune_wrong",
    "Hachoir.Props.C141_valid"
   ],
   "note": "Headers of all modules; nothing behind them is read (violation, proved); what the code would read is proved."
  },
  {
   "property": "C142",
   "status": "proved",
   "theorems": [
    "Hachoir.Props.C142_small",
    "Hachoir.Props.C142_version",
    "Hachoir.Props.C142_file",
    "Hachoir.Props.C142_chunk",
    "Hachoir.Props.C142_valid"
   ],
   "note": "All trees of chunks."
  },
  {
   "property": "C143",
   "status": "partial",
   "theorems": [
    "Hachoir.Props.C143_audio_told",
    "Hachoir.Props.C143_audio",
    "Hachoir.Props.C143_audio_valid",
    "Hachoir.Props.C143_duration",
    "Hachoir.Props.C143_logical_wrong",
    "Hachoir.Props.C143_media_partial",
    "Hachoir.Props.C143_video"
   ],
   "note": "All files; places of streams are misread (violation, proved)."
  },
  {
   "property": "C144",
   "status": "partial",
   "theorems": [
    "Hachoir.Props.C144_packet_valid",
    "Hachoir.Props.C144_name",
    "Hachoir.Props.C144_stream_partial",
    "Hachoir.Props.C144_clock_wrong",
    "Hachoir.Props.C144_empty_wrong",
    "Hachoir.Props.C144_error_wrong",
    "Hachoir.Props.C144_m2ts_wrong"
   ],
   "note": "All streams of packets without clocks, with damage between them; four violations proved."
  },
  {
   "property": "C145",
   "status": "partial",
   "theorems": [
    "Hachoir.Props.C145_found",
    "Hachoir.Props.C145_unreadable",
    "Hachoir.Props.C145_address",
    "Hachoir.Props.C145_address_bytes"
   ],
   "note": "All trees of readable texts; an unreadable text ends the search (violation, proved)."
  },
  {
   "property": "C146",
   "status": "partial",
   "theorems": [
    "Hachoir.Props.C146_tables",
    "Hachoir.Props.C146_quality",
    "Hachoir.Props.C146_coarser",
    "Hachoir.Props.C146_frame",
    "Hachoir.Props.C146_frame_wrong",
    "Hachoir.Props.C146_jfif",
    "Hachoir.Props.C146_dpi_wrong",
    "Hachoir.Props.C146_thumb_wrong",
    "Hachoir.Props.C146_position_partial",
    "Hachoir.Props.C146_sea_level_wrong",
    "Hachoir.Props.C146_date_partial",
    "Hachoir.Props.C146_date_wrong",
    "Hachoir.Props.C146_exact",
    "Hachoir.Props.C146_sorted"
   ],
   "note": "Tables, quality, frames, headers and positions; five violations proved."
  },
  {
   "property": "C147",
   "status": "partial",
   "theorems": [
    "Hachoir.Props.C147_records",
    "Hachoir.Props.C147_extended_wrong",
    "Hachoir.Props.C147_text",
    "Hachoir.Props.C147_date",
    "Hachoir.Props.C147_told",
    "Hachoir.Props.C147_date_alone",
    "Hachoir.Props.C147_dataset_wrong",
    "Hachoir.Props.C147_resources",
    "Hachoir.Props.C147_large_wrong",
    "Hachoir.Props.C147_texts",
    "Hachoir.Props.C147_size_words"
   ],
   "note": "All records with sizes below 32768, all resources below 65536 bytes; four violations proved."
  },
  {
   "property": "C148",
   "status": "partial",
   "theorems": [
    "Hachoir.Props.C148_record_partial",
    "Hachoir.Props.C148_no_record",
    "Hachoir.Props.C148_tree_partial",
    "Hachoir.Props.C148_lost",
    "Hachoir.Props.C148_lost_records",
    "Hachoir.Props.C148_allocator",
    "Hachoir.Props.C148_file_partial",
    "Hachoir.Props.C148_fixed"
   ],
   "note": "Allocator and headers proved; the records are lost and nodes skipped (violation, proved); all read with a proper comparison (proved)."
  },
  {
   "property": "C149",
   "status": "partial",
   "theorems": [
    "Hachoir.Props.C149_image",
    "Hachoir.Props.C149_images_partial",
    "Hachoir.Props.C149_lost",
    "Hachoir.Props.C149_file_partial",
    "Hachoir.Props.C149_both",
    "Hachoir.Props.C149_empty",
    "Hachoir.Props.C149_broken"
   ],
   "note": "Proved for files whose directories all have a picture; violation otherwise (proved)."
  },
  {
   "property": "C150",
   "status": "partial",
   "theorems": [
    "Hachoir.Props.C150_file_partial",
    "Hachoir.Props.C150_told",
    "Hachoir.Props.C150_large",
    "Hachoir.Props.C150_compression",
    "Hachoir.Props.C150_modes",
    "Hachoir.Props.C150_valid"
   ],
   "note": "Proved for resources below 65536 bytes (see C147) and widths up to 20000; violation above (proved)."
  },
  {
   "property": "C151",
   "status": "partial",
   "theorems": [
    "Hachoir.Props.C151_properties_partial",
    "Hachoir.Props.C151_text_wrong",
    "Hachoir.Props.C151_glyphs",
    "Hachoir.Props.C151_shared",
    "Hachoir.Props.C151_file_partial"
   ],
   "note": "Proved for texts that follow the names of their properties and names used once; violations otherwise (proved)."
  },
  {
   "property": "C152",
   "status": "partial",
   "theorems": [
    "Hachoir.Props.C152_kind",
    "Hachoir.Props.C152_leaf",
    "Hachoir.Props.C152_content",
    "Hachoir.Props.C152_file",
    "Hachoir.Props.C152_valid",
    "Hachoir.Props.C152_mime",
    "Hachoir.Props.C152_rate_partial",
    "Hachoir.Props.C152_rate_wrong",
    "Hachoir.Props.C152_told_partial",
    "Hachoir.Props.C152_authorless",
    "Hachoir.Props.C152_no_copyright",
    "Hachoir.Props.C152_untitled",
    "Hachoir.Props.C152_empty_text",
    "Hachoir.Props.C152_track",
    "Hachoir.Props.C152_vbr"
   ],
   "note": "Proved for descriptors without empty texts, streams in the order of their numbers and files with a title; violations otherwise (proved)."
  },
  {
   "property": "C153",
   "status": "partial",
   "theorems": [
    "Hachoir.Props.C153_string",
    "Hachoir.Props.C153_long_string",
    "Hachoir.Props.C153_item",
    "Hachoir.Props.C153_items",
    "Hachoir.Props.C153_shell",
    "Hachoir.Props.C153_location",
    "Hachoir.Props.C153_order",
    "Hachoir.Props.C153_extra",
    "Hachoir.Props.C153_head",
    "Hachoir.Props.C153_file_partial",
    "Hachoir.Props.C153_valid",
    "Hachoir.Props.C153_keys_partial",
    "Hachoir.Props.C153_key_text",
    "Hachoir.Props.C153_backspace"
   ],
   "note": "Proved for shortcuts whose parts are in the order of the reading, with wide characters whose low bytes are not zero (see C42); violations otherwise (proved)."
  },
  {
   "property": "C154",
   "status": "partial",
   "theorems": [
    "Hachoir.Props.C154_entry_partial",
    "Hachoir.Props.C154_other",
    "Hachoir.Props.C154_archive_partial",
    "Hachoir.Props.C154_valid",
    "Hachoir.Props.C154_flags",
    "Hachoir.Props.C154_times",
    "Hachoir.Props.C154_comment",
    "Hachoir.Props.C154_version",
    "Hachoir.Props.C154_salted",
    "Hachoir.Props.C154_large",
    "Hachoir.Props.C154_added"
   ],
   "note": "Proved for files without the flags 0x100, 0x400 and 0x4000, and other blocks without added data; violations otherwise (proved)."
  },
  {
   "property": "C155",
   "status": "partial",
   "theorems": [
    "Hachoir.Props.C155_read",
    "Hachoir.Props.C155_head",
    "Hachoir.Props.C155_constant",
    "Hachoir.Props.C155_mean",
    "Hachoir.Props.C155_fast",
    "Hachoir.Props.C155_variable_partial",
    "Hachoir.Props.C155_fooled"
   ],
   "note": "Proved for constant bit rates, and for variable ones when the counted frames have the mean bit rate of all; violated when the rate changes behind the eleventh frame (proved)."
  },
  {
   "property": "C156",
   "status": "partial",
   "theorems": [
    "Hachoir.Props.C156_rect",
    "Hachoir.Props.C156_content",
    "Hachoir.Props.C156_tag",
    "Hachoir.Props.C156_movie",
    "Hachoir.Props.C156_packed",
    "Hachoir.Props.C156_valid",
    "Hachoir.Props.C156_positive",
    "Hachoir.Props.C156_negative",
    "Hachoir.Props.C156_twips",
    "Hachoir.Props.C156_frame_rate",
    "Hachoir.Props.C156_compressed"
   ],
   "note": "Tags, contents and the frame rate proved; rectangles proved for numbers that are not below zero; the told size is violated (proved)."
  },
  {
   "property": "C157",
   "status": "partial",
   "theorems": [
    "Hachoir.Props.C157_packed",
    "Hachoir.Props.C157_halved",
    "Hachoir.Props.C157_pattern",
    "Hachoir.Props.C157_sample",
    "Hachoir.Props.C157_loop",
    "Hachoir.Props.C157_second",
    "Hachoir.Props.C157_envelope",
    "Hachoir.Props.C157_instrument",
    "Hachoir.Props.C157_header",
    "Hachoir.Props.C157_module",
    "Hachoir.Props.C157_content_size",
    "Hachoir.Props.C157_valid",
    "Hachoir.Props.C157_linear",
    "Hachoir.Props.C157_extended",
    "Hachoir.Props.C157_extended_wrong",
    "Hachoir.Props.C157_extra_fine",
    "Hachoir.Props.C157_effect",
    "Hachoir.Props.C157_effect_shifted",
    "Hachoir.Props.C157_no_effect"
   ],
   "note": "Structure, sizes and data proved; the told values of unpacked notes, envelope types, loop modes, the frequency table and some effects are violated (proved)."
  },
  {
   "property": "C158",
   "status": "partial",
   "theorems": [
    "Hachoir.Props.C158_zip_file",
    "Hachoir.Props.C158_zip_blank",
    "Hachoir.Props.C158_cab_file",
    "Hachoir.Props.C158_tar_file",
    "Hachoir.Props.C158_tar_mode",
    "Hachoir.Props.C158_listing",
    "Hachoir.Props.C158_zip",
    "Hachoir.Props.C158_limit"
   ],
   "note": "Order, number, names, sizes, dates and rates proved; blank names, attributes and invalid modes are violated (proved)."
  },
  {
   "property": "C159",
   "status": "partial",
   "theorems": [
    "Hachoir.Props.C159_named",
    "Hachoir.Props.C159_west",
    "Hachoir.Props.C159_half",
    "Hachoir.Props.C159_told",
    "Hachoir.Props.C159_raises"
   ],
   "note": "Which texts are read and what is told proved; time zones west of Greenwich, of half hours and of a day or more are violated (proved)."
  },
  {
   "property": "C160",
   "status": "partial",
   "theorems": [
    "Hachoir.Props.C160_track",
    "Hachoir.Props.C160_file",
    "Hachoir.Props.C160_comment",
    "Hachoir.Props.C160_alone",
    "Hachoir.Props.C160_texts",
    "Hachoir.Props.C160_shorter",
    "Hachoir.Props.C160_lost"
   ],
   "note": "Comments, tracks, streams and playing time proved; lost comments and values that begin others are violated (proved)."
  },
  {
   "property": "C161",
   "status": "proved",
   "theorems": [
    "Hachoir.Props.C161_entry",
    "Hachoir.Props.C161_directory",
    "Hachoir.Props.C161_short",
    "Hachoir.Props.C161_mode",
    "Hachoir.Props.C161_inode",
    "Hachoir.Props.C161_old",
    "Hachoir.Props.C161_size"
   ],
   "note": ""
  },
  {
   "property": "C162",
   "status": "partial",
   "theorems": [
    "Hachoir.Props.C162_superblock",
    "Hachoir.Props.C162_valid",
    "Hachoir.Props.C162_groups",
    "Hachoir.Props.C162_label",
    "Hachoir.Props.C162_count",
    "Hachoir.Props.C162_told",
    "Hachoir.Props.C162_inodes",
    "Hachoir.Props.C162_used",
    "Hachoir.Props.C162_data",
    "Hachoir.Props.C162_whole",
    "Hachoir.Props.C162_long",
    "Hachoir.Props.C162_hole",
    "Hachoir.Props.C162_listed",
    "Hachoir.Props.C162_files",
    "Hachoir.Props.C162_outside"
   ],
   "note": "Groups, inodes and files inside their group without holes and double indirect blocks proved; numbers of blocks, used space, holes, long files and files over groups are violated (proved)."
  },
  {
   "property": "C163",
   "status": "partial",
   "theorems": [
    "Hachoir.Props.C163_head",
    "Hachoir.Props.C163_head_numbers",
    "Hachoir.Props.C163_style_wrong",
    "Hachoir.Props.C163_bold_wrong",
    "Hachoir.Props.C163_version",
    "Hachoir.Props.C163_maxp",
    "Hachoir.Props.C163_angle_wrong",
    "Hachoir.Props.C163_post_partial",
    "Hachoir.Props.C163_glyphs_wrong",
    "Hachoir.Props.C163_offsets_wrong",
    "Hachoir.Props.C163_variations_partial",
    "Hachoir.Props.C163_one_axis_wrong",
    "Hachoir.Props.C163_postscript_wrong",
    "Hachoir.Props.C163_file",
    "Hachoir.Props.C163_valid"
   ],
   "note": "Directory, header, limits, glyph names in order and variations of at least two axes proved for all fonts; style bits, negative angles, glyph names in another order, version 2.5 and PostScript names of instances are violated (proved). Fields of DSIG, GSUB, avar, cmap, hhea and OS/2 are not modelled."
  },
  {
   "property": "C164",
   "status": "partial",
   "theorems": [
    "Hachoir.Props.C164_found",
    "Hachoir.Props.C164_bytes",
    "Hachoir.Props.C164_records",
    "Hachoir.Props.C164_many",
    "Hachoir.Props.C164_told_partial",
    "Hachoir.Props.C164_dates",
    "Hachoir.Props.C164_comments",
    "Hachoir.Props.C164_direction_partial",
    "Hachoir.Props.C164_right_to_left",
    "Hachoir.Props.C164_beginning",
    "Hachoir.Props.C164_empty",
    "Hachoir.Props.C164_charset"
   ],
   "note": "Names with own or fully shared places, dates and comments proved; right-to-left directions and records that share a beginning or are empty are violated (proved)."
  },
  {
   "property": "C165",
   "status": "partial",
   "theorems": [
    "Hachoir.Props.C165_types",
    "Hachoir.Props.C165_unknown",
    "Hachoir.Props.C165_field",
    "Hachoir.Props.C165_definition",
    "Hachoir.Props.C165_loop",
    "Hachoir.Props.C165_header",
    "Hachoir.Props.C165_file_partial",
    "Hachoir.Props.C165_beginning",
    "Hachoir.Props.C165_lost",
    "Hachoir.Props.C165_checksum_wrong",
    "Hachoir.Props.C165_compressed_wrong",
    "Hachoir.Props.C165_short_wrong"
   ],
   "note": "Types, fields, definitions, the loop and whole files with headers of 14 bytes and a last message longer than the header proved for all files; short last messages, the checksum, compressed time stamps and short headers are violated (proved)."
  },
  {
   "property": "C166",
   "status": "partial",
   "theorems": [
    "Hachoir.Props.C166_content",
    "Hachoir.Props.C166_long",
    "Hachoir.Props.C166_nothing",
    "Hachoir.Props.C166_section",
    "Hachoir.Props.C166_summary",
    "Hachoir.Props.C166_found_partial",
    "Hachoir.Props.C166_reversed",
    "Hachoir.Props.C166_gap_lost"
   ],
   "note": "Values, sections and whole streams proved for all places; properties are found by their places when they follow each other in the order of the index; other orders and gaps are violated (proved)."
  },
  {
   "property": "C167",
   "status": "partial",
   "theorems": [
    "Hachoir.Props.C167_texts_partial",
    "Hachoir.Props.C167_dates_partial",
    "Hachoir.Props.C167_pages_partial",
    "Hachoir.Props.C167_comments_partial",
    "Hachoir.Props.C167_format",
    "Hachoir.Props.C167_lost",
    "Hachoir.Props.C167_swapped"
   ],
   "note": "Texts, dates, pages and comments proved for sections whose properties follow each other and have the types they need; the format of presentations, gaps and other orders are violated (proved)."
  },
  {
   "property": "C168",
   "status": "partial",
   "theorems": [
    "Hachoir.Props.C168_content_partial",
    "Hachoir.Props.C168_file_partial",
    "Hachoir.Props.C168_long_string",
    "Hachoir.Props.C168_empty",
    "Hachoir.Props.C168_empty_last",
    "Hachoir.Props.C168_external_wrong"
   ],
   "note": "All contents and whole files proved at any depth; long texts, objects without values that are not the last, and externalizable classes with fields in a super class are violated (proved)."
  },
  {
   "property": "C169",
   "status": "proved",
   "theorems": [
    "Hachoir.Props.C169_url",
    "Hachoir.Props.C169_date",
    "Hachoir.Props.C169_name",
    "Hachoir.Props.C169_size",
    "Hachoir.Props.C169_comments",
    "Hachoir.Props.C169_file",
    "Hachoir.Props.C169_utf8_wrong",
    "Hachoir.Props.C169_long"
   ],
   "note": "URL, date, name, size and comments for all dictionaries with distinct names, and from the bytes of a file; texts that are not ASCII are told in the wrong charset (proved). Not modelled: dictionaries with repeated keys, for which the parser raises."
  },
  {
   "property": "C170",
   "status": "partial",
   "theorems": [
    "Hachoir.Props.C170_stream",
    "Hachoir.Props.C170_empty"
   ],
   "note": "All files whose IDAT chunks are not empty. With an empty one the stream cannot be read (proved). Not modelled: inflating the data."
  },
  {
   "property": "C171",
   "status": "partial",
   "theorems": [
    "Hachoir.Props.C171_properties",
    "Hachoir.Props.C171_offsets",
    "Hachoir.Props.C171_layer",
    "Hachoir.Props.C171_letters",
    "Hachoir.Props.C171_version",
    "Hachoir.Props.C171_picture",
    "Hachoir.Props.C171_flags",
    "Hachoir.Props.C171_opacity",
    "Hachoir.Props.C171_order"
   ],
   "note": "All pictures whose properties have the data of their class. The six flags of layers are not read and the opacity is shown as a colour (both proved). Not modelled: hierarchies and channels."
  },
  {
   "property": "C172",
   "status": "partial",
   "theorems": [
    "Hachoir.Props.C172_missing",
    "Hachoir.Props.C172_empty",
    "Hachoir.Props.C172_type",
    "Hachoir.Props.C172_ring",
    "Hachoir.Props.C172_lock",
    "Hachoir.Props.C172_secrets",
    "Hachoir.Props.C172_small"
   ],
   "note": "All keyrings whose texts are missing or not empty and whose secrets have at least 77 bytes. An empty text is an error, the flag lock_on_idle is read from the wrong bit, and a small last secret is dropped (all proved). Not modelled: the cipher."
  },
  {
   "property": "C173",
   "status": "partial",
   "theorems": [
    "Hachoir.Props.C173_job",
    "Hachoir.Props.C173_user",
    "Hachoir.Props.C173_valid",
    "Hachoir.Props.C173_flag",
    "Hachoir.Props.C173_hidden"
   ],
   "note": "All jobs without user data. With user data what follows is misread (proved), and the names of the flags from the fourth on are one bit off (proved)."
  },
  {
   "property": "C174",
   "status": "partial",
   "theorems": [
    "Hachoir.Props.C174_rates",
    "Hachoir.Props.C174_average",
    "Hachoir.Props.C174_bounded",
    "Hachoir.Props.C174_between",
    "Hachoir.Props.C174_way",
    "Hachoir.Props.C174_never",
    "Hachoir.Props.C174_zero"
   ],
   "note": "All histories of calls for 0 < min_size \u2264 size; outside of it there is never an average, or all rates are kept (both proved). Floating point numbers are modelled by exact ones."
  },
  {
   "property": "C175",
   "status": "partial",
   "theorems": [
    "Hachoir.Props.C175_long",
    "Hachoir.Props.C175_short",
    "Hachoir.Props.C175_named",
    "Hachoir.Props.C175_silent"
   ],
   "note": "All numbers of 16 and 32 bits. Five of the attributes are never named (proved)."
  },
  {
   "property": "C176",
   "status": "partial",
   "theorems": [
    "Hachoir.Props.C176_store",
    "Hachoir.Props.C176_full",
    "Hachoir.Props.C176_trail"
   ],
   "note": "All files whose table has a blank entry and whose second table has no entry of size 0. Without a blank entry, or with an empty entry, the rest is an error (both proved)."
  },
  {
   "property": "C177",
   "status": "partial",
   "theorems": [
    "Hachoir.Props.C177_file",
    "Hachoir.Props.C177_gap",
    "Hachoir.Props.C177_never",
    "Hachoir.Props.C177_back"
   ],
   "note": "All files whose first resource follows the table and whose offsets increase. Otherwise the resources are misplaced or an error (proved), and no file is ever taken by itself (proved)."
  },
  {
   "property": "C178",
   "status": "partial",
   "theorems": [
    "Hachoir.Props.C178_font",
    "Hachoir.Props.C178_blank",
    "Hachoir.Props.C178_offset",
    "Hachoir.Props.C178_valid"
   ],
   "note": "All fonts without empty pictures. An empty picture is an error, and the places of the pictures are not looked at (both proved)."
  },
  {
   "property": "C179",
   "status": "partial",
   "theorems": [
    "Hachoir.Props.C179_file",
    "Hachoir.Props.C179_state",
    "Hachoir.Props.C179_follows",
    "Hachoir.Props.C179_small",
    "Hachoir.Props.C179_numbers",
    "Hachoir.Props.C179_later",
    "Hachoir.Props.C179_valid"
   ],
   "note": "All file systems with blocks above 204 bytes. The numbers of blocks are right in the first file read only (both proved)."
  },
  {
   "property": "C180",
   "status": "partial",
   "theorems": [
    "Hachoir.Props.C180_screen",
    "Hachoir.Props.C180_buffer",
    "Hachoir.Props.C180_calls",
    "Hachoir.Props.C180_file",
    "Hachoir.Props.C180_error",
    "Hachoir.Props.C180_quiet",
    "Hachoir.Props.C180_append"
   ],
   "note": "All sequences of operations. The argument `append` has no effect, and errors of the disk other than a missing directory are left out."
  },
  {
   "property": "C181",
   "status": "partial",
   "theorems": [
    "Hachoir.Props.C181_handler",
    "Hachoir.Props.C181_limited",
    "Hachoir.Props.C181_rounded",
    "Hachoir.Props.C181_nested",
    "Hachoir.Props.C181_lost"
   ],
   "note": "The time and the end of all functions without limits of their own, and the handler for all functions. A limit within a limit takes it away (proved). Limits are fractions, not floats; the implementation with setrlimit is left out."
  },
  {
   "property": "C182",
   "status": "proved",
   "theorems": [
    "Hachoir.Props.C182_get",
    "Hachoir.Props.C182_few",
    "Hachoir.Props.C182_stale",
    "Hachoir.Props.C182_backwards"
   ],
   "note": "All files, ranges, chunks and earlier operations. For a range whose end is before its beginning the error is proved."
  },
  {
   "property": "C183",
   "status": "proved",
   "theorems": [
    "Hachoir.Props.C183_visible",
    "Hachoir.Props.C183_least",
    "Hachoir.Props.C183_large",
    "Hachoir.Props.C183_again",
    "Hachoir.Props.C183_marked",
    "Hachoir.Props.C183_painted",
    "Hachoir.Props.C183_place",
    "Hachoir.Props.C183_mark",
    "Hachoir.Props.C183_span"
   ],
   "note": "Rows, marks and scrolling; the widths of the panes, which are floats, are not modelled, and wx's Scroll is assumed to stop at the end."
  },
  {
   "property": "C184",
   "status": "proved",
   "theorems": [
    "Hachoir.Props.C184_items",
    "Hachoir.Props.C184_found",
    "Hachoir.Props.C184_limit",
    "Hachoir.Props.C184_early"
   ],
   "note": "All requests; the path from the root to the node and wx itself are not modelled."
  },
  {
   "property": "C185",
   "status": "partial",
   "theorems": [
    "Hachoir.Props.C185_limited",
    "Hachoir.Props.C185_enough",
    "Hachoir.Props.C185_unlimited",
    "Hachoir.Props.C185_raised",
    "Hachoir.Props.C185_overflow",
    "Hachoir.Props.C185_hard",
    "Hachoir.Props.C185_nested"
   ],
   "note": "The limit is kept to and taken back for functions that set no limit themselves, in processes without a limit of their own; for the others the contrary is proved."
  },
  {
   "property": "C186",
   "status": "proved",
   "theorems": [
    "Hachoir.Props.C186_rows",
    "Hachoir.Props.C186_end",
    "Hachoir.Props.C186_selected",
    "Hachoir.Props.C186_parent"
   ],
   "note": "Rows and selection for all field sets; names must be proper (no `/`, not only dots), as for C25."
  },
  {
   "property": "C187",
   "status": "partial",
   "theorems": [
    "Hachoir.Props.C187_moment",
    "Hachoir.Props.C187_texts",
    "Hachoir.Props.C187_dates",
    "Hachoir.Props.C187_zeros",
    "Hachoir.Props.C187_zone",
    "Hachoir.Props.C187_fields",
    "Hachoir.Props.C187_negative"
   ],
   "note": "Dates and texts, when no text is the beginning of another of the same attribute (then only the longer is told, as for C160). The time zone of dates is lost, which is proved."
  },
  {
   "property": "C188",
   "status": "partial",
   "theorems": [
    "Hachoir.Props.C188_file_partial",
    "Hachoir.Props.C188_back",
    "Hachoir.Props.C188_valid"
   ],
   "note": "The fields up to the page of the root are read as written; that the numbers behind are not read is proved as well. Entries of fewer than 45 bytes are not covered."
  },
  {
   "property": "C189",
   "status": "proved",
   "theorems": [
    "Hachoir.Props.C189_names",
    "Hachoir.Props.C189_numbered",
    "Hachoir.Props.C189_end",
    "Hachoir.Props.C189_file",
    "Hachoir.Props.C189_valid"
   ],
   "note": "Chunks that are told to be shorter than their own header are not covered."
  },
  {
   "property": "C190",
   "status": "partial",
   "theorems": [
    "Hachoir.Props.C190_section_partial",
    "Hachoir.Props.C190_file_partial",
    "Hachoir.Props.C190_dependency",
    "Hachoir.Props.C190_valid"
   ],
   "note": "Dependency sections are only covered by the theorem on what they take too much; names are in UTF-16 without zero low bytes."
  },
  {
   "property": "C191",
   "status": "proved",
   "theorems": [
    "Hachoir.Props.C191_crc",
    "Hachoir.Props.C191_change",
    "Hachoir.Props.C191_no_description",
    "Hachoir.Props.C191_directory",
    "Hachoir.Props.C191_names",
    "Hachoir.Props.C191_fat",
    "Hachoir.Props.C191_files",
    "Hachoir.Props.C191_valid",
    "Hachoir.Props.C191_outside",
    "Hachoir.Props.C191_megabits"
   ],
   "note": "The size told for the table of names is not looked at; the fields of the header are not modelled, only the decision on them."
  },
  {
   "property": "C192",
   "status": "partial",
   "theorems": [
    "Hachoir.Props.C192_block_partial",
    "Hachoir.Props.C192_plain_block",
    "Hachoir.Props.C192_no_between",
    "Hachoir.Props.C192_alpha",
    "Hachoir.Props.C192_jpeg",
    "Hachoir.Props.C192_unused",
    "Hachoir.Props.C192_second"
   ],
   "note": "Pixels with interpolated colours and pictures behind the first one without compression are not decoded by the code; header, palette and BLP2 files are not modelled."
  },
  {
   "property": "C193",
   "status": "proved",
   "theorems": [
    "Hachoir.Props.C193_stat",
    "Hachoir.Props.C193_run",
    "Hachoir.Props.C193_zero",
    "Hachoir.Props.C193_limits"
   ],
   "note": "Times are exact numbers; the rounding of floats is not modelled."
  },
  {
   "property": "C194",
   "status": "proved",
   "theorems": [
    "Hachoir.Props.C194_status",
    "Hachoir.Props.C194_bench",
    "Hachoir.Props.C194_crash"
   ],
   "note": "Parsing of options, interrupts by the user and the charset of the terminal are not modelled."
  },
  {
   "property": "C195",
   "status": "proved",
   "theorems": [
    "Hachoir.Props.C195_next",
    "Hachoir.Props.C195_prev",
    "Hachoir.Props.C195_back"
   ],
   "note": "Widgets, keys and the loading of fields are not modelled."
  },
  {
   "property": "C196",
   "status": "proved",
   "theorems": [
    "Hachoir.Props.C196_archive",
    "Hachoir.Props.C196_ends",
    "Hachoir.Props.C196_headless",
    "Hachoir.Props.C196_valid"
   ],
   "note": "Blocks cut by the end of the file and descriptions are not modelled."
  },
  {
   "property": "C197",
   "status": "partial",
   "theorems": [
    "Hachoir.Props.C197_wmf",
    "Hachoir.Props.C197_emf",
    "Hachoir.Props.C197_table",
    "Hachoir.Props.C197_table_emf",
    "Hachoir.Props.C197_headers",
    "Hachoir.Props.C197_size_partial",
    "Hachoir.Props.C197_size_most",
    "Hachoir.Props.C197_size_short"
   ],
   "note": "The size of a file inside other data is right only if the bytes of the last record do not occur before (C197_size_partial, C197_size_short); validate and records too small for their parameters are not modelled."
  },
  {
   "property": "C198",
   "status": "partial",
   "theorems": [
    "Hachoir.Props.C198_model_partial",
    "Hachoir.Props.C198_nodes"
   ],
   "note": "Files with nodes are not told whole: every node raises an error (C198_nodes). Files without nodes are (C198_model_partial)."
  },
  {
   "property": "C199",
   "status": "proved",
   "theorems": [
    "Hachoir.Props.C199_apm",
    "Hachoir.Props.C199_plain",
    "Hachoir.Props.C199_emf",
    "Hachoir.Props.C199_texts",
    "Hachoir.Props.C199_producer",
    "Hachoir.Props.C199_device"
   ],
   "note": "humanPixelSize is assumed to raise for no number; decoding of UTF-16 is a parameter."
  },
  {
   "property": "C200",
   "status": "partial",
   "theorems": [
    "Hachoir.Props.C200_lines_partial",
    "Hachoir.Props.C200_columns_partial",
    "Hachoir.Props.C200_ambiguous",
    "Hachoir.Props.C200_ends",
    "Hachoir.Props.C200_found"
   ],
   "note": "Columns can be read back only if none has a semicolon (C200_columns_partial, C200_ambiguous), and all files are told only if each can be opened (C200_lines_partial, C200_ends)."
  },
  {
   "property": "C201",
   "status": "partial",
   "theorems": [
    "Hachoir.Props.C201_blocks_partial",
    "Hachoir.Props.C201_extensions",
    "Hachoir.Props.C201_song",
    "Hachoir.Props.C201_plugin"
   ],
   "note": "Blocks are told up to the first extension or plugin, and these are never told (C201_extensions, C201_song, C201_plugin). Fewer than four bytes behind the last block are not covered."
  },
  {
   "property": "C202",
   "status": "proved",
   "theorems": [
    "Hachoir.Props.C202_told",
    "Hachoir.Props.C202_titles"
   ],
   "note": "The headers of the program, and what the metadata do with a value assigned, are not in this model."
  },
  {
   "property": "C203",
   "status": "proved",
   "theorems": [
    "Hachoir.Props.C203_files",
    "Hachoir.Props.C203_names",
    "Hachoir.Props.C203_distinct"
   ],
   "note": "Files that go beyond the end of what is searched are counted and named, but what they hold is not told."
  }
 ]
}