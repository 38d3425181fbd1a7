{
 "claims": [
  {
   "property": "C01",
   "status": "proved",
   "theorems": [
    "Verif.C01_load_total"
   ],
   "note": ""
  },
  {
   "property": "C02",
   "status": "proved",
   "theorems": [
    "Verif.C02_load_error",
    "Verif.C02_load_succeeds_iff",
    "Verif.C02_load_fields"
   ],
   "note": ""
  },
  {
   "property": "C03",
   "status": "proved",
   "theorems": [
    "Verif.C03_trailing_bytes"
   ],
   "note": ""
  },
  {
   "property": "C04",
   "status": "proved",
   "theorems": [
    "Verif.C04_valid_refused",
    "Verif.C04_wrong_endian"
   ],
   "note": ""
  },
  {
   "property": "C05",
   "status": "proved",
   "theorems": [
    "Verif.C05_versions_kept_apart"
   ],
   "note": ""
  },
  {
   "property": "C06",
   "status": "proved",
   "theorems": [
    "Verif.C06_fdes_enumerates"
   ],
   "note": ""
  },
  {
   "property": "C07",
   "status": "partial",
   "theorems": [
    "Verif.C07_nth_disagrees",
    "Verif.C07_nth_agrees_partial"
   ],
   "note": "False of the code: nth does not apply the FRE start offset. Negation with a witness; the partial theorem says exactly when nth and next agree."
  },
  {
   "property": "C08",
   "status": "partial",
   "theorems": [
    "Verif.C08_next_back_disagrees",
    "Verif.C08_next_back_partial"
   ],
   "note": "False of the code: next_back does not apply the FRE start offset. Negation with a witness; the partial theorem says exactly when both directions agree."
  },
  {
   "property": "C09",
   "status": "proved",
   "theorems": [
    "Verif.C09_fre_iteration"
   ],
   "note": ""
  },
  {
   "property": "C10",
   "status": "proved",
   "theorems": [
    "Verif.C10_size_hint"
   ],
   "note": ""
  },
  {
   "property": "C11",
   "status": "partial",
   "theorems": [
    "Verif.C11_fre_panics",
    "Verif.C11_fre_panics_iff_partial"
   ],
   "note": "False of the code: an assertion on the row start panics on untrusted input. Negation with a witness; the partial theorem gives the exact panic condition."
  },
  {
   "property": "C12",
   "status": "proved",
   "theorems": [
    "Verif.C12_fre_decodes",
    "Verif.C12_rows_decode"
   ],
   "note": ""
  },
  {
   "property": "C13",
   "status": "proved",
   "theorems": [
    "Verif.C13_contains_exact"
   ],
   "note": ""
  },
  {
   "property": "C14",
   "status": "proved",
   "theorems": [
    "Verif.C14_found_covers"
   ],
   "note": ""
  },
  {
   "property": "C15",
   "status": "proved",
   "theorems": [
    "Verif.C15_unsorted_lookup",
    "Verif.C15_checked",
    "Verif.C15_unchecked"
   ],
   "note": ""
  },
  {
   "property": "C16",
   "status": "partial",
   "theorems": [
    "Verif.C16_sorted_lookup_misses",
    "Verif.C16_sorted_lookup_partial"
   ],
   "note": "False of the code: the comparator is inverted. Negation with a witness; the partial theorem says exactly which function of a sorted table is found, for both binary search algorithms."
  },
  {
   "property": "C17",
   "status": "partial",
   "theorems": [
    "Verif.C17_lookup_wrong_rows",
    "Verif.C17_lookup_rows_partial"
   ],
   "note": "False of the code for sorted sections (uses nth). Negation with a witness; the partial theorem says exactly when the entry agrees."
  },
  {
   "property": "C18",
   "status": "partial",
   "theorems": [
    "Verif.C18_lookup_past_end",
    "Verif.C18_lookup_outside_partial",
    "Verif.C18_at_end_partial"
   ],
   "note": "False of the code at address start+size. Negation with a witness; the partial theorems cover all other addresses and say what is found at this one."
  },
  {
   "property": "C19",
   "status": "partial",
   "theorems": [
    "Verif.C19_lookup_not_governing",
    "Verif.C19_lookup_partial"
   ],
   "note": "False of the code: the first instead of the last row is returned. Negation with a witness; the partial theorem says exactly when the result is the governing row."
  },
  {
   "property": "C20",
   "status": "proved",
   "theorems": [
    "Verif.C20_pcmask_periodic",
    "Verif.C20_pcmask_zero",
    "Verif.C20_pcmask_row"
   ],
   "note": ""
  },
  {
   "property": "C21",
   "status": "proved",
   "theorems": [
    "Verif.C21_offset_accessors",
    "Verif.C21_decoded"
   ],
   "note": ""
  },
  {
   "property": "C22",
   "status": "proved",
   "theorems": [
    "Verif.C22_start_address"
   ],
   "note": ""
  },
  {
   "property": "C23",
   "status": "proved",
   "theorems": [
    "Verif.C23_no_unreachable",
    "Verif.C23_fde_info",
    "Verif.C23_fre_info",
    "Verif.C23_offset_count"
   ],
   "note": ""
  },
  {
   "property": "C24",
   "status": "proved",
   "theorems": [
    "Verif.C24_row",
    "Verif.C24_refused"
   ],
   "note": ""
  },
  {
   "property": "C25",
   "status": "partial",
   "theorems": [
    "Verif.C25_missing_offsets_accepted",
    "Verif.C25_never_missing_partial"
   ],
   "note": "False of the code: offsets that the section needs are never demanded of a row. Negation with a witness; the partial theorem says that the two errors are never returned."
  },
  {
   "property": "C26",
   "status": "proved",
   "theorems": [
    "Verif.C26_overlap"
   ],
   "note": ""
  },
  {
   "property": "C27",
   "status": "proved",
   "theorems": [
    "Verif.C27_build_total"
   ],
   "note": ""
  },
  {
   "property": "C28",
   "status": "proved",
   "theorems": [
    "Verif.C28_layout"
   ],
   "note": ""
  },
  {
   "property": "C29",
   "status": "proved",
   "theorems": [
    "Verif.C29_too_large"
   ],
   "note": ""
  },
  {
   "property": "C30",
   "status": "proved",
   "theorems": [
    "Verif.C30_round_trip"
   ],
   "note": ""
  },
  {
   "property": "C31",
   "status": "partial",
   "theorems": [
    "Verif.C31_exact_partial",
    "Verif.C31_tie_misread",
    "Verif.C31_missing_ra_misread",
    "Verif.C31_shrunk_panics",
    "Verif.C31_rows_partial"
   ],
   "note": "False of the code: a tie of magnitudes picks a width that is too small, a row without RA but with FP is misread, and a shrunk function makes the reader panic. Negations with witnesses; the partial theorems give the exact condition under which a function's rows read back, and what is read of every row otherwise."
  },
  {
   "property": "C32",
   "status": "partial",
   "theorems": [
    "Verif.C32_width_too_small",
    "Verif.C32_offset_width_partial"
   ],
   "note": "False of the code: a positive and a negative offset of equal magnitude pick the wrong width. Negation with a witness; the partial theorem says exactly when the width fits."
  },
  {
   "property": "C33",
   "status": "proved",
   "theorems": [
    "Verif.C33_start_width"
   ],
   "note": ""
  },
  {
   "property": "C34",
   "status": "proved",
   "theorems": [
    "Verif.C34_rows_any_order",
    "Verif.C34_functions_any_order"
   ],
   "note": ""
  },
  {
   "property": "C35",
   "status": "proved",
   "theorems": [
    "Verif.C35_fde"
   ],
   "note": ""
  },
  {
   "property": "C36",
   "status": "proved",
   "theorems": [
    "Verif.C36_sorted"
   ],
   "note": ""
  },
  {
   "property": "C37",
   "status": "proved",
   "theorems": [
    "Verif.C37_setters"
   ],
   "note": ""
  },
  {
   "property": "C38",
   "status": "proved",
   "theorems": [
    "Verif.C38_merge_preserves"
   ],
   "note": ""
  },
  {
   "property": "C39",
   "status": "proved",
   "theorems": [
    "Verif.C39_merge_complete"
   ],
   "note": ""
  },
  {
   "property": "C40",
   "status": "partial",
   "theorems": [
    "Verif.C40_terminates",
    "Verif.C40_release_loses_function",
    "Verif.C40_changes_row",
    "Verif.C40_merge_preserves_partial",
    "Verif.C40_disjoint_partial",
    "Verif.C40_exact_partial",
    "Verif.C40_unchanged_iff_partial"
   ],
   "note": "False of the code: the difference of the starts is taken the wrong way round. Negations with witnesses (a release build loses a function; in both profiles the row of an address changes); termination is proved in full; what the code does is described exactly for every builder with any number of functions (C40_exact_partial), and it changes nothing exactly if no two neighbours meet the mistaken condition (C40_unchanged_iff_partial)."
  },
  {
   "property": "C41",
   "status": "partial",
   "theorems": [
    "Verif.C41_not_merged",
    "Verif.C41_never_merged",
    "Verif.C41_two_partial",
    "Verif.C41_once_partial"
   ],
   "note": "False of the code: adjacent functions are never merged. Negations with a witness and for all inputs; the partial theorems say exactly what happens to two functions (and C40_exact_partial to any number), and that a function takes in at most one other."
  },
  {
   "property": "C42",
   "status": "proved",
   "theorems": [
    "Verif.C42_converter",
    "Verif.C42_reader",
    "Verif.C42_writer"
   ],
   "note": "Reader, writer and converter."
  },
  {
   "property": "C43",
   "status": "proved",
   "theorems": [
    "Verif.C43_options"
   ],
   "note": ""
  },
  {
   "property": "C44",
   "status": "proved",
   "theorems": [
    "Verif.C44_error",
    "Verif.C44_no_partial_result",
    "Verif.C44_named"
   ],
   "note": ""
  },
  {
   "property": "C45",
   "status": "proved",
   "theorems": [
    "Verif.C45_row",
    "Verif.C45_rows"
   ],
   "note": ""
  },
  {
   "property": "C46",
   "status": "proved",
   "theorems": [
    "Verif.C46_unwinds_alike"
   ],
   "note": ""
  },
  {
   "property": "C47",
   "status": "partial",
   "theorems": [
    "Verif.C47_panics_ra",
    "Verif.C47_panics_offset",
    "Verif.C47_panics_outside",
    "Verif.C47_panics_duplicate",
    "Verif.C47_panics_underflow",
    "Verif.C47_panics_iff_partial",
    "Verif.C47_ordinary_partial"
   ],
   "note": "False of the code: a return address elsewhere than at CFA-8, a row outside its function, 2^28 bytes in or at the place of another one makes the converter panic. Negations with witnesses; the partial theorems give the exact panic condition and a sufficient condition for returning."
  },
  {
   "property": "C48",
   "status": "proved",
   "theorems": [
    "Verif.C48_zero_width"
   ],
   "note": ""
  },
  {
   "property": "C49",
   "status": "partial",
   "theorems": [
    "Verif.C49_warnings",
    "Verif.C49_dump_error",
    "Verif.C49_dump_panics",
    "Verif.C49_dump_partial",
    "Verif.C49_success_iff_partial",
    "Verif.C49_first_trouble_partial"
   ],
   "note": "Proved in full for warnings. False of the code for debugdump: an expression that cannot be decoded, or in debug builds the end of a function beyond 2^64, stops the converter only if the dump is on. Negations with witnesses; the partial theorems cover all other inputs, say exactly when the conversion succeeds with the dump, and what happens at the first function whose dump does not go through."
  },
  {
   "property": "C50",
   "status": "proved",
   "theorems": [
    "Verif.C50_cache"
   ],
   "note": ""
  },
  {
   "property": "C51",
   "status": "proved",
   "theorems": [
    "Verif.C51_last_wins"
   ],
   "note": ""
  },
  {
   "property": "C52",
   "status": "partial",
   "theorems": [
    "Verif.C52_tie",
    "Verif.C52_rows_partial",
    "Verif.C52_unwinds_partial",
    "Verif.C52_usual_partial",
    "Verif.C52_exact_partial"
   ],
   "note": "False of the code: an offset that ties in magnitude with an earlier negative one is read back with the wrong sign. Negation with a witness; the partial theorems give the exact condition, the end-to-end statement from DWARF rows to loaded rows, and that nothing saved above the CFA suffices; C52_exact_partial says for every function, ties or not, what is read of each row."
  },
  {
   "property": "C53",
   "status": "partial",
   "theorems": [
    "Verif.C53_got_replaces_text",
    "Verif.C53_wrong_address",
    "Verif.C53_bases_partial",
    "Verif.C53_only_these_bases"
   ],
   "note": "False of the code: the address of .got is stored as the text base and the data base is never set, so a pointer relative to the data base is not resolved and one relative to the text base is resolved wrongly. Negations with witnesses; the partial theorem gives the base addresses of files without .got, and C53_only_these_bases shows what the conversion depends on."
  },
  {
   "property": "C54",
   "status": "proved",
   "theorems": [
    "Verif.C54_success",
    "Verif.C54_failure",
    "Verif.C54_only_complete_objects",
    "Verif.C54_section"
   ],
   "note": ""
  },
  {
   "property": "C55",
   "status": "partial",
   "theorems": [
    "Verif.C55_bad_row_stops_dump",
    "Verif.C55_address_overflow",
    "Verif.C55_dump_partial"
   ],
   "note": "False of the code: a row on which the reader asserts stops the whole dump, and in a debug build an address overflow does. Negations with witnesses; the partial theorem gives the complete listing for every section without such a row or function."
  },
  {
   "property": "C56",
   "status": "partial",
   "theorems": [
    "Verif.C56_wrong_rules",
    "Verif.C56_zero_width",
    "Verif.C56_malformed_rule",
    "Verif.C56_succeeds_iff_partial",
    "Verif.C56_unwinds_partial",
    "Verif.C56_functions",
    "Verif.C56_converts_partial"
   ],
   "note": "False of the code: a rule for RBP that SFrame cannot express is emitted as 'not saved'; a row of width zero is an error and a malformed rule of any register a panic, where the newer tool succeeds. Negations with witnesses; the partial theorems give the exact condition for success and the exact rules emitted, and when the tools agree."
  },
  {
   "property": "C57",
   "status": "partial",
   "theorems": [
    "Verif.C57_section",
    "Verif.C57_wrong_architecture",
    "Verif.C57_wrong_byte_order",
    "Verif.C57_iff_partial",
    "Verif.C57_success"
   ],
   "note": "False of the code: the section always declares little-endian AMD64 and is written in the byte order of the host. Negations with witnesses; the partial theorem shows that the claim holds exactly for little-endian x86-64 files on little-endian hosts."
  },
  {
   "property": "C58",
   "status": "proved",
   "theorems": [
    "Verif.C58_merge_options"
   ],
   "note": ""
  },
  {
   "property": "C59",
   "status": "proved",
   "theorems": [
    "Verif.C59_warnings"
   ],
   "note": ""
  },
  {
   "property": "C60",
   "status": "partial",
   "theorems": [
    "Verif.C60_foreign_refused",
    "Verif.C60_host_order_partial"
   ],
   "note": "False of the code: the section is read in the byte order of the host, so every valid object of the other byte order is refused. Negation with a witness; the partial theorem covers the objects of the host's byte order, and C04_valid_refused shows that all others are refused."
  },
  {
   "property": "C61",
   "status": "proved",
   "theorems": [
    "Verif.C61_text_faithful"
   ],
   "note": ""
  },
  {
   "property": "C62",
   "status": "proved",
   "theorems": [
    "Verif.C62_dump_of_built",
    "Verif.C62_exact"
   ],
   "note": ""
  },
  {
   "property": "C63",
   "status": "proved",
   "theorems": [
    "Verif.C63_end_to_end",
    "Verif.C63_exact"
   ],
   "note": ""
  },
  {
   "property": "C64",
   "status": "proved",
   "theorems": [
    "Verif.C64_lookup"
   ],
   "note": ""
  },
  {
   "property": "C65",
   "status": "partial",
   "theorems": [
    "Verif.C65_same_bytes_partial",
    "Verif.C65_not_injective",
    "Verif.C65_injective_partial"
   ],
   "note": "False of the code: a row with an FP offset but no RA offset, and a row with a width tie, are built to the same bytes as another row. Negation with two witnesses; the partial theorems cover all other builders, and say exactly which builders give the same bytes."
  },
  {
   "property": "C66",
   "status": "proved",
   "theorems": [
    "Verif.C66_merged_smaller"
   ],
   "note": ""
  },
  {
   "property": "C67",
   "status": "proved",
   "theorems": [
    "Verif.C67_debug"
   ],
   "note": ""
  },
  {
   "property": "C68",
   "status": "partial",
   "theorems": [
    "Verif.C68_signed_unmarked",
    "Verif.C68_unsigned_partial"
   ],
   "note": "False of the code: mangled_ra_p is never set. Negation with an AArch64 witness; the partial theorem covers rows whose return address is not signed."
  },
  {
   "property": "C69",
   "status": "partial",
   "theorems": [
    "Verif.C69_never_wrong_partial",
    "Verif.C69_ties_partial",
    "Verif.C69_stack_switch",
    "Verif.C69_walk_partial",
    "Verif.C69_exact_partial"
   ],
   "note": "False of the code if a row has an explicit rule for the stack pointer (witness); the partial theorem covers walks of any length through rows without one and without signed return addresses, and C69_ties_partial says exactly, for all sections, which steps lead to another frame."
  },
  {
   "property": "C70",
   "status": "partial",
   "theorems": [
    "Verif.C70_other_function",
    "Verif.C70_other_row",
    "Verif.C70_first_partial",
    "Verif.C70_single_partial",
    "Verif.C70_several_partial"
   ],
   "note": "False of the code (C16, C17, C19 show on converted sections): negation with a witness of two functions and one of two rows; the partial theorems say exactly what is found if the input has a single function (the rules of its first row, so that the claim holds exactly where the covering row has the same rules), and what is found in sections of several functions (nothing, or the first row of the first function)."
  },
  {
   "property": "C71",
   "status": "proved",
   "theorems": [
    "Verif.C71_read",
    "Verif.C71_row",
    "Verif.C71_emit"
   ],
   "note": ""
  },
  {
   "property": "C72",
   "status": "partial",
   "theorems": [
    "Verif.C72_text_partial",
    "Verif.C72_rows_alike"
   ],
   "note": "False of the code: InvalidRowOffset prints neither the row nor the function (witness: two conversions with different errors of the same text); the partial theorem says exactly which errors have the same text."
  },
  {
   "property": "C73",
   "status": "partial",
   "theorems": [
    "Verif.C73_start_limit",
    "Verif.C73_row_limit",
    "Verif.C73_count_limit",
    "Verif.C73_byte_order",
    "Verif.C73_limits_partial"
   ],
   "note": "False of the code: the texts say 0x10000000 where the limit is i32::MAX, 'larger than' where equality is refused, '1 to 3' where 0 is accepted, and blame the byte order for data that is not SFrame in either (witnesses); the partial theorem shows that a size that is blamed does reach the limit named, and that a section with the right magic number is never blamed for its byte order."
  },
  {
   "property": "C74",
   "status": "proved",
   "theorems": [
    "Verif.C74_load",
    "Verif.C74_rows",
    "Verif.C74_accessors",
    "Verif.C74_lookup"
   ],
   "note": ""
  },
  {
   "property": "C75",
   "status": "partial",
   "theorems": [
    "Verif.C75_exact_partial",
    "Verif.C75_text_partial",
    "Verif.C75_number"
   ],
   "note": "False of the code: a register without a name and a constant are printed alike (witness from two conversions); the partial theorems show that everything else is determined, and say exactly which texts agree."
  },
  {
   "property": "C76",
   "status": "proved",
   "theorems": [
    "Verif.C76_mixed_iteration"
   ],
   "note": ""
  },
  {
   "property": "C77",
   "status": "proved",
   "theorems": [
    "Verif.C77_rows",
    "Verif.C77_section"
   ],
   "note": ""
  },
  {
   "property": "C78",
   "status": "proved",
   "theorems": [
    "Verif.C78_rows_local",
    "Verif.C78_sections_local"
   ],
   "note": ""
  },
  {
   "property": "C79",
   "status": "proved",
   "theorems": [
    "Verif.C79_byte_order"
   ],
   "note": ""
  },
  {
   "property": "C80",
   "status": "proved",
   "theorems": [
    "Verif.C80_any_order"
   ],
   "note": ""
  },
  {
   "property": "C81",
   "status": "proved",
   "theorems": [
    "Verif.C81_essential"
   ],
   "note": ""
  },
  {
   "property": "C82",
   "status": "proved",
   "theorems": [
    "Verif.C82_moved"
   ],
   "note": ""
  },
  {
   "property": "C83",
   "status": "partial",
   "theorems": [
    "Verif.C83_load_panics",
    "Verif.C83_load_partial"
   ],
   "note": "False of the code in debug builds: `freoff + fre_len` overflows (witness: a header of 28 bytes); the partial theorem says exactly when, and that otherwise, and in release builds always, the result is that of a 64-bit target."
  },
  {
   "property": "C84",
   "status": "partial",
   "theorems": [
    "Verif.C84_control",
    "Verif.C84_base_types",
    "Verif.C84_text_partial"
   ],
   "note": "False of the code: the base types of DW_OP_deref and DW_OP_register_offset are not printed (witness); the partial theorem shows that everything else is determined."
  },
  {
   "property": "C85",
   "status": "proved",
   "theorems": [
    "Verif.C85_text",
    "Verif.C85_equal"
   ],
   "note": ""
  },
  {
   "property": "C86",
   "status": "partial",
   "theorems": [
    "Verif.C86_complete_partial",
    "Verif.C86_stops",
    "Verif.C86_prefix",
    "Verif.C86_success"
   ],
   "note": "False of the code: an expression that cannot be decoded ends the dump with a line on stderr and exit code 0 (witness); the partial theorem has the hypothesis that stderr is empty; the other theorems say when the dump stops and that everything before that place is described."
  },
  {
   "property": "C87",
   "status": "partial",
   "theorems": [
    "Verif.C87_panics_partial",
    "Verif.C87_panics"
   ],
   "note": "False of the code: it panics without an argument, on a section that cannot be decompressed, and in debug builds on a function whose end overflows (witnesses); the partial theorem says that these are the only panics."
  },
  {
   "property": "C88",
   "status": "proved",
   "theorems": [
    "Verif.C88_bases",
    "Verif.C88_only_these"
   ],
   "note": ""
  },
  {
   "property": "C89",
   "status": "partial",
   "theorems": [
    "Verif.C89_names_partial",
    "Verif.C89_aarch64",
    "Verif.C89_exact_partial"
   ],
   "note": "False of the code: on AArch64 the names of 32-bit Arm are used (witness); the partial theorems are about all other architectures, and say exactly which names agree."
  },
  {
   "property": "C90",
   "status": "partial",
   "theorems": [
    "Verif.C90_text_partial",
    "Verif.C90_indirect"
   ],
   "note": "False of the code: whether an encoding is indirect is not printed (witness); the partial theorem shows that everything else is determined."
  },
  {
   "property": "C91",
   "status": "proved",
   "theorems": [
    "Verif.C91_result",
    "Verif.C91_success",
    "Verif.C91_stopped",
    "Verif.C91_silent"
   ],
   "note": ""
  },
  {
   "property": "C92",
   "status": "partial",
   "theorems": [
    "Verif.C92_text_partial",
    "Verif.C92_number"
   ],
   "note": "False of the code: a register without a name and the constant of the same value read the same (witness), and base types are not shown (C84); the partial theorem says exactly which functions have the same dump."
  },
  {
   "property": "C93",
   "status": "proved",
   "theorems": [
    "Verif.C93_section"
   ],
   "note": ""
  },
  {
   "property": "C94",
   "status": "proved",
   "theorems": [
    "Verif.C94_result",
    "Verif.C94_success",
    "Verif.C94_stopped",
    "Verif.C94_run"
   ],
   "note": ""
  },
  {
   "property": "C95",
   "status": "partial",
   "theorems": [
    "Verif.C95_spurious",
    "Verif.C95_row_partial",
    "Verif.C95_exact_partial",
    "Verif.C95_silent"
   ],
   "note": "False of the code: it complains about rows with the rule 'same value' for RBP, which it stores faithfully (witness). The partial theorems are the claim for all other rows, and say exactly about which rows it complains; that nothing is lost in silence is proved in full (C95_silent)."
  },
  {
   "property": "C96",
   "status": "partial",
   "theorems": [
    "Verif.C96_wrong_names",
    "Verif.C96_wrong_run",
    "Verif.C96_names_partial",
    "Verif.C96_rules",
    "Verif.C96_iff"
   ],
   "note": "False of the code: outside of rules, registers have the names of x86-64 whatever the architecture (witnesses). The partial theorem is the claim for x86-64 files; C96_iff says exactly when the name is right."
  },
  {
   "property": "C97",
   "status": "partial",
   "theorems": [
    "Verif.C97_text_partial",
    "Verif.C97_run_partial",
    "Verif.C97_number"
   ],
   "note": "False of the code: a register without a name and the constant of the same value read the same (witness C97_number). The partial theorems say exactly which functions, and which runs, have the same output."
  },
  {
   "property": "C98",
   "status": "proved",
   "theorems": [
    "Verif.C98_section"
   ],
   "note": ""
  },
  {
   "property": "C99",
   "status": "proved",
   "theorems": [
    "Verif.C99_instructions",
    "Verif.C99_ties"
   ],
   "note": ""
  },
  {
   "property": "C100",
   "status": "proved",
   "theorems": [
    "Verif.C100_agree",
    "Verif.C100_exact"
   ],
   "note": ""
  },
  {
   "property": "C101",
   "status": "partial",
   "theorems": [
    "Verif.C101_wrong_frame",
    "Verif.C101_walk_partial",
    "Verif.C101_ties_partial",
    "Verif.C101_exact_partial"
   ],
   "note": "False of the code: a row whose rule for RBP SFrame cannot express is emitted as if RBP were unchanged, so the walker goes on with a wrong frame pointer (witness C101_wrong_frame). The partial theorems are the claim for walks by rows without such a rule and without a rule for the stack pointer (C69), and C101_ties_partial says exactly, for all sections, which steps lead to another frame."
  },
  {
   "property": "C102",
   "status": "proved",
   "theorems": [
    "Verif.C102_converts_iff"
   ],
   "note": ""
  },
  {
   "property": "C103",
   "status": "partial",
   "theorems": [
    "Verif.C103_instructions_partial",
    "Verif.C103_wrong_rules",
    "Verif.C103_ties_partial"
   ],
   "note": "False of the code: where the instructions give RBP a rule that SFrame cannot express, the section says that it is unchanged (witness C103_wrong_rules). The partial theorems say exactly which rules are found at every address, with ties and without, and prove the claim wherever RBP has one of the other rules."
  },
  {
   "property": "C104",
   "status": "proved",
   "theorems": [
    "Verif.C104_converts_iff"
   ],
   "note": ""
  },
  {
   "property": "C105",
   "status": "partial",
   "theorems": [
    "Verif.C105_unwritten",
    "Verif.C105_written_partial"
   ],
   "note": "False of the code: main never flushes its BufWriter, and the failure of the flush on drop is ignored (witness C105_unwritten; sframedumpOn_short shows the same of every listing below 8192 bytes). The partial theorem: what was taken is the start of the listing, at most 8192 bytes are missing after a success, none if stdout takes everything."
  },
  {
   "property": "C106",
   "status": "proved",
   "theorems": [
    "Verif.C106_written"
   ],
   "note": ""
  },
  {
   "property": "C107",
   "status": "partial",
   "theorems": [
    "Verif.C107_print_by_print",
    "Verif.C107_exact_partial",
    "Verif.C107_quiet_partial",
    "Verif.C107_exact1_partial",
    "Verif.C107_depends",
    "Verif.C107_converter_partial",
    "Verif.C107_legacy_partial"
   ],
   "note": "False of the code: a failing print panics, or is reported as an invalid FDE, and nothing is written (witnesses C107_depends and, on the print-by-print model, C107_print_by_print, for both converters). The partial theorems: which lines are printed and how, and that the first line that is refused decides the outcome; with any streams the run is that without failures, or it fails and writes nothing; without --debug-dump and --warnings the streams do not matter."
  },
  {
   "property": "C108",
   "status": "proved",
   "theorems": [
    "Verif.C108_success",
    "Verif.C108_failure",
    "Verif.C108_no_file"
   ],
   "note": ""
  },
  {
   "property": "C109",
   "status": "partial",
   "theorems": [
    "Verif.C109_step_dump",
    "Verif.C109_step_newer",
    "Verif.C109_step_legacy",
    "Verif.C109_line_newer",
    "Verif.C109_line_dump",
    "Verif.C109_line_legacy",
    "Verif.C109_names_newer",
    "Verif.C109_names_legacy_partial",
    "Verif.C109_names_dump_partial",
    "Verif.C109_wrong_section",
    "Verif.C109_no_step",
    "Verif.C109_cause_newer",
    "Verif.C109_cause_legacy",
    "Verif.C109_cause_dump",
    "Verif.C109_report_dump",
    "Verif.C109_code_newer",
    "Verif.C109_code_legacy"
   ],
   "note": "That the step reported is the first that failed, and that first lines tell the steps and files apart, is proved in full. What they name is false of the code in two cases: sframedump blames .eh_frame for a .sframe section that cannot be decompressed (witness C109_wrong_section), and the legacy converter reports a failing listing of instructions with gimli's text alone (witness C109_no_step). The partial theorems are the claim for all other errors."
  },
  {
   "property": "C110",
   "status": "proved",
   "theorems": [
    "Verif.C110_rewrite",
    "Verif.C110_panics",
    "Verif.C110_made"
   ],
   "note": ""
  },
  {
   "property": "C111",
   "status": "proved",
   "theorems": [
    "Verif.C111_text_tells",
    "Verif.C111_text_same",
    "Verif.C111_text_exists"
   ],
   "note": ""
  },
  {
   "property": "C112",
   "status": "proved",
   "theorems": [
    "Verif.C112_merged_smaller"
   ],
   "note": ""
  },
  {
   "property": "C113",
   "status": "partial",
   "theorems": [
    "Verif.C113_keeps_partial",
    "Verif.C113_accepts",
    "Verif.C113_tie_changes"
   ],
   "note": "False of the code for rows whose offsets are 128 and -128 (or 32768 and -32768) in wider fields, which the builder writes too narrow (witness C113_tie_changes; the cause is that of C32). The partial theorem is the claim with the rows of a function telling the same exactly if none of them has such a tie; which sections are taken is proved in full."
  },
  {
   "property": "C114",
   "status": "proved",
   "theorems": [
    "Verif.C114_truncated",
    "Verif.C114_built"
   ],
   "note": ""
  },
  {
   "property": "C115",
   "status": "proved",
   "theorems": [
    "Verif.C115_few"
   ],
   "note": ""
  },
  {
   "property": "C116",
   "status": "partial",
   "theorems": [
    "Verif.C116_heading",
    "Verif.C116_columns_partial",
    "Verif.C116_shifted"
   ],
   "note": "False of the code for offsets of ten digits (CFA) or more than eight (FP), which are longer than their columns (witness C116_shifted). The partial theorem is exact: the columns are right exactly for the other rows."
  },
  {
   "property": "C117",
   "status": "proved",
   "theorems": [
    "Verif.C117_last",
    "Verif.C117_program",
    "Verif.C117_order",
    "Verif.C117_all"
   ],
   "note": ""
  },
  {
   "property": "C118",
   "status": "partial",
   "theorems": [
    "Verif.C118_misread",
    "Verif.C118_reads_partial",
    "Verif.C118_masks_lost",
    "Verif.C118_writes_partial",
    "Verif.C118_unreadable",
    "Verif.C118_converted",
    "Verif.C118_legacy"
   ],
   "note": "False of the code: the bits for type and key are one place lower than in the format, so a PCMASK function of another program is read as an ordinary one with key B (C118_misread, C118_masks_lost), and PcMask functions or functions with key B are written so that others refuse or misread them (C118_unreadable). Exactly the PcInc functions with key A are read and written as the format says (C118_reads_partial, C118_writes_partial); all functions of both converters are such (C118_converted, C118_legacy)."
  },
  {
   "property": "C119",
   "status": "proved",
   "theorems": [
    "Verif.C119_decimal",
    "Verif.C119_signed",
    "Verif.C119_hex",
    "Verif.C119_width",
    "Verif.C119_pointer",
    "Verif.C119_bool"
   ],
   "note": ""
  },
  {
   "property": "C120",
   "status": "proved",
   "theorems": [
    "Verif.C120_section",
    "Verif.C120_errors",
    "Verif.C120_lines"
   ],
   "note": ""
  },
  {
   "property": "C121",
   "status": "partial",
   "theorems": [
    "Verif.C121_row_partial",
    "Verif.C121_function_pointer",
    "Verif.C121_build",
    "Verif.C121_load",
    "Verif.C121_rows",
    "Verif.C121_lookup",
    "Verif.C121_accessors",
    "Verif.C121_converter",
    "Verif.C121_warnings",
    "Verif.C121_legacy"
   ],
   "note": "False of the code in one word: a row whose frame pointer offset differs from that of the header is refused with a message about a function pointer (C121_function_pointer). Everything else holds, with that word read as frame pointer: C121_row_partial, C121_build, C121_load, C121_rows, C121_lookup, C121_accessors, C121_converter, C121_warnings, C121_legacy. Limits are the subject of C73."
  },
  {
   "property": "C122",
   "status": "proved",
   "theorems": [
    "Verif.C122_reads_back",
    "Verif.C122_tool",
    "Verif.C122_built"
   ],
   "note": ""
  },
  {
   "property": "C123",
   "status": "partial",
   "theorems": [
    "Verif.C123_instruction",
    "Verif.C123_operands",
    "Verif.C123_names_partial",
    "Verif.C123_names_false",
    "Verif.C123_listing"
   ],
   "note": "False of the code for some operations: DW_OP_plus_uconst, constants, registers, DW_OP_fbreg, calls and DW_OP_form_tls_address are listed under names that DWARF does not have, and operations such as DW_OP_or by their Debug text without indentation (C123_names_false, which C123_names_partial makes exact). All instructions are named as in DWARF (C123_instruction), all operands are those of the instruction or operation (C123_instruction, C123_operands; base types are the subject of C84), and the lines are in order (C123_listing)."
  },
  {
   "property": "C124",
   "status": "proved",
   "theorems": [
    "Verif.C124_entry",
    "Verif.C124_prefix",
    "Verif.C124_run"
   ],
   "note": ""
  },
  {
   "property": "C125",
   "status": "partial",
   "theorems": [
    "Verif.C125_functions_panic",
    "Verif.C125_rows_panic",
    "Verif.C125_functions_partial",
    "Verif.C125_unsorted_partial",
    "Verif.C125_sorted_partial",
    "Verif.C125_rows_partial"
   ],
   "note": "False of the code: in a build with overflow checks a lookup of a function panics when it comes to one that the address lies more than i32::MAX behind (C125_functions_panic), and in any build a lookup of a row panics when it comes to a row that starts outside the function (C125_rows_panic). The partial theorems say exactly when, for unsorted sections, for sorted ones and for rows; without overflow checks lookups of functions always return (C125_functions_partial)."
  },
  {
   "property": "C126",
   "status": "partial",
   "theorems": [
    "Verif.C126_exact_partial",
    "Verif.C126_depends"
   ],
   "note": "False of the code: eprintln! panics if stderr refuses the message about an undecodable row or the help text, and what comes after is not listed (C126_depends). The partial theorem says exactly what is written and how the tool ends, for every stdout and stderr."
  },
  {
   "property": "C127",
   "status": "proved",
   "theorems": [
    "Verif.C127_told"
   ],
   "note": ""
  },
  {
   "property": "C128",
   "status": "proved",
   "theorems": [
    "Verif.C128_add"
   ],
   "note": ""
  },
  {
   "property": "C129",
   "status": "proved",
   "theorems": [
    "Verif.C129_newer",
    "Verif.C129_legacy",
    "Verif.C129_same"
   ],
   "note": ""
  },
  {
   "property": "C130",
   "status": "proved",
   "theorems": [
    "Verif.C130_unused_bytes"
   ],
   "note": ""
  },
  {
   "property": "C131",
   "status": "proved",
   "theorems": [
    "Verif.C131_contains",
    "Verif.C131_row",
    "Verif.C131_function",
    "Verif.C131_built",
    "Verif.C131_converted",
    "Verif.C131_legacy"
   ],
   "note": ""
  },
  {
   "property": "C132",
   "status": "proved",
   "theorems": [
    "Verif.C132_section",
    "Verif.C132_built",
    "Verif.C132_converted",
    "Verif.C132_legacy"
   ],
   "note": ""
  },
  {
   "property": "C133",
   "status": "proved",
   "theorems": [
    "Verif.C133_function",
    "Verif.C133_converted",
    "Verif.C133_legacy"
   ],
   "note": ""
  },
  {
   "property": "C134",
   "status": "proved",
   "theorems": [
    "Verif.C134_warnings"
   ],
   "note": ""
  },
  {
   "property": "C135",
   "status": "proved",
   "theorems": [
    "Verif.C135_dump",
    "Verif.C135_legacy"
   ],
   "note": ""
  },
  {
   "property": "C136",
   "status": "proved",
   "theorems": [
    "Verif.C136_fails",
    "Verif.C136_legacy"
   ],
   "note": ""
  },
  {
   "property": "C137",
   "status": "proved",
   "theorems": [
    "Verif.C137_entries",
    "Verif.C137_warnings",
    "Verif.C137_printed",
    "Verif.C137_legacy",
    "Verif.C137_legacy_printed"
   ],
   "note": ""
  },
  {
   "property": "C138",
   "status": "proved",
   "theorems": [
    "Verif.C138_run",
    "Verif.C138_legacy"
   ],
   "note": ""
  },
  {
   "property": "C139",
   "status": "proved",
   "theorems": [
    "Verif.C139_dump"
   ],
   "note": ""
  },
  {
   "property": "C140",
   "status": "proved",
   "theorems": [
    "Verif.C140_dump"
   ],
   "note": ""
  },
  {
   "property": "C141",
   "status": "proved",
   "theorems": [
    "Verif.C141_run",
    "Verif.C141_legacy",
    "Verif.C141_dump"
   ],
   "note": ""
  },
  {
   "property": "C142",
   "status": "proved",
   "theorems": [
    "Verif.C142_repeated",
    "Verif.C142_legacy"
   ],
   "note": ""
  }
 ]
}
