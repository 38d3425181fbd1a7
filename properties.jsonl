{"id": "C01", "title": "Loading a section is total", "statement": "`SFrame::load` never panics, for any byte string and either byte order; its result is a section, or exactly one of UnexpectedEof, IncorrectEndian, UnsupportedVersion.", "quantifier": "every byte string, both byte orders", "why_tests_cant": "the input space is all byte strings; header fields (offsets, counts, lengths) are attacker-controlled 32-bit values", "anchors": ["crates/sframe/src/read.rs: SFrame::load"]}
{"id": "C02", "title": "Load decodes the documented layout", "statement": "`SFrame::load` succeeds exactly when the magic matches in the chosen byte order, the version is 1 or 2, and the 28-byte header, the auxiliary header, the FDE table and the FRE sub-section all lie inside the input; then every accessor returns the integer stored at the documented byte position, and the FDE table and FRE bytes are those at the documented offsets. When it fails, which error is returned is determined by the first failed condition.", "quantifier": "every byte string, both byte orders", "why_tests_cant": "a test compares a few literal sections; the iff quantifies over all truncations and all field values", "anchors": ["crates/sframe/src/read.rs: SFrame::load", "crates/sframe/src/raw/v2.rs: Header", "crates/sframe/src/raw/v1.rs: FuncDescEntry", "crates/sframe/src/raw/mod.rs: Preamble"]}
{"id": "C03", "title": "Trailing bytes are ignored", "statement": "If loading a byte string succeeds, loading it with any bytes appended succeeds too and gives the same section.", "quantifier": "every byte string that loads and every suffix", "why_tests_cant": "two unbounded byte strings", "anchors": ["crates/sframe/src/read.rs: SFrame::load"]}
{"id": "C04", "title": "A section in the other byte order is refused", "statement": "Whatever `build` emits for one byte order, `load` with the other byte order returns IncorrectEndian.", "quantifier": "every builder that builds, both byte orders", "why_tests_cant": "ranges over every builder", "anchors": ["crates/sframe/src/read.rs: SFrame::load", "crates/sframe/src/write.rs: SFrameBuilder::build", "crates/sframe/src/raw/mod.rs: MAGIC"]}
{"id": "C05", "title": "Version 1 and version 2 function types are kept apart", "statement": "A loaded version-2 section never yields an FDE of type PcMaskV1 and always gives a repetition block size; a version-1 section never yields PcMask and never gives a repetition block size.", "quantifier": "every loaded section and every FDE in it", "why_tests_cant": "ranges over every section", "anchors": ["crates/sframe/src/read.rs: Fde::fdetype, Fde::rep_size"]}
{"id": "C06", "title": "fdes() enumerates the whole table in order, exactly once", "statement": "Iterating `fdes()` with `next` yields exactly `num_fdes()` entries, in table order, each with the bytes of the FRE sub-section from its own start offset (empty if the offset is out of range); the reported length is exact at every point and the iterator stays exhausted.", "quantifier": "every loaded section, every prefix of the iteration", "why_tests_cant": "unbounded table length", "anchors": ["crates/sframe/src/read.rs: SFrame::fdes, FuncDescIter::next, size_hint"]}
{"id": "C07", "title": "Skipping in fdes() agrees with stepping", "statement": "`fdes().nth(n)` returns the same entry (same header and same FREs) as calling `next` n+1 times.", "quantifier": "every loaded section and every n", "why_tests_cant": "depends on offset stored in each entry; only fails for entries whose FREs are not at offset 0", "anchors": ["crates/sframe/src/read.rs: FuncDescIter::nth"]}
{"id": "C08", "title": "Backward iteration agrees with forward iteration", "statement": "Iterating `fdes()` with `next_back` yields the reverse of what `next` yields (same headers, same FREs).", "quantifier": "every loaded section", "why_tests_cant": "same", "anchors": ["crates/sframe/src/read.rs: FuncDescIter::next_back"]}
{"id": "C09", "title": "FRE iteration is bounded, terminates and is fused", "statement": "Iterating the FREs of any FDE stops after at most its FRE count; the first error is the last item; after the end `next` keeps returning None.", "quantifier": "every FDE header, every FRE byte string, every number of `next` calls", "why_tests_cant": "counts up to 2^32-1 and every malformed input", "anchors": ["crates/sframe/src/read.rs: FrameRowIter::next"]}
{"id": "C10", "title": "FRE iterator size hints are sound", "statement": "At every point of the iteration the lower bound of `size_hint` is at most, and the upper bound is at least, the number of items still to come.", "quantifier": "every FDE, every FRE byte string, every point of iteration", "why_tests_cant": "must hold at every state", "anchors": ["crates/sframe/src/read.rs: FrameRowIter::size_hint"]}
{"id": "C11", "title": "Reading FREs of untrusted input never panics", "statement": "Iterating the FREs of any FDE of any loaded section returns rows or errors and never panics.", "quantifier": "every byte string", "why_tests_cant": "depends on malformed inputs", "anchors": ["crates/sframe/src/read.rs: FrameRowEntry::load"]}
{"id": "C12", "title": "An FRE decodes to the documented layout", "statement": "A successfully read FRE has: the start offset stored in 1, 2 or 4 bytes as the FDE's FRE type says; the flags of the info byte; and as many sign-extended offsets of 1, 2 or 4 bytes as the info byte says; the remaining input is exactly what follows. Reading fails with UnsupportedFreType, InvalidFreOffsetCount, UnsupportedFreOffset or UnexpectedEof exactly in the corresponding cases.", "quantifier": "every FDE info byte, every byte string, both byte orders", "why_tests_cant": "all info bytes x all lengths x all contents", "anchors": ["crates/sframe/src/read.rs: FrameRowEntry::load", "crates/sframe/src/raw/v2.rs: FreInfo, FdeInfo"]}
{"id": "C13", "title": "contains() is the half-open address range", "statement": "`contains(a)` is true exactly when start <= a < start+size as integers (no wrap-around); a debug build panics instead exactly when a - start exceeds i32::MAX.", "quantifier": "every FDE, every address, both build profiles", "why_tests_cant": "2^96 combinations incl. overflow corners", "anchors": ["crates/sframe/src/read.rs: FuncDescEntry::contains"]}
{"id": "C14", "title": "An FDE found for an address contains it", "statement": "If `fde_for_address(a)` returns an FDE, that FDE is in the table and its range contains a, whether or not the section is flagged sorted and whether or not it really is.", "quantifier": "every loaded section, every address", "why_tests_cant": "holds for arbitrary unsorted tables", "anchors": ["crates/sframe/src/read.rs: SFrame::fde_for_address"]}
{"id": "C15", "title": "Lookup in an unsorted section finds the first match", "statement": "In a section without the sorted flag, `fde_for_address(a)` returns exactly the first FDE of `fdes()` whose range contains a, and None iff there is none. A build with overflow checks panics instead exactly if it first comes to an FDE that a lies more than i32::MAX behind.", "quantifier": "every loaded section without FDE_SORTED, every address", "why_tests_cant": "unbounded tables", "anchors": ["crates/sframe/src/read.rs: SFrame::fde_for_address"]}
{"id": "C16", "title": "Lookup in a sorted section finds the covering function", "statement": "In a section with the sorted flag whose FDEs are sorted and disjoint, `fde_for_address(a)` returns Some whenever some FDE contains a.", "quantifier": "every sorted section, every address", "why_tests_cant": "binary search correctness over every length and target position", "anchors": ["crates/sframe/src/read.rs: SFrame::fde_for_address"]}
{"id": "C17", "title": "A looked-up FDE is the one fdes() shows", "statement": "The entry `fde_for_address` returns has the same rows as the corresponding entry of `fdes()`.", "quantifier": "every loaded section, every address", "why_tests_cant": "only entries at offset 0 behave", "anchors": ["crates/sframe/src/read.rs: SFrame::fde_for_address, FuncDescIter::nth"]}
{"id": "C18", "title": "FRE lookup outside the function returns None", "statement": "`get_fre_for_address(a)` returns None for every address outside [start, start+size).", "quantifier": "every FDE, every FRE bytes, every address", "why_tests_cant": "boundary of every function", "anchors": ["crates/sframe/src/read.rs: FuncDescEntry::get_fre_for_address"]}
{"id": "C19", "title": "FRE lookup returns the row in force at the address", "statement": "For a PcInc function `get_fre_for_address(a)` returns the last row whose start offset is <= a - start, i.e. the row that governs a.", "quantifier": "every well-formed FDE, every address in it", "why_tests_cant": "needs every row layout and every address", "anchors": ["crates/sframe/src/read.rs: FuncDescEntry::get_fre_for_address"]}
{"id": "C20", "title": "PcMask lookups are periodic", "statement": "For a PcMask FDE the looked-up row depends only on (a - start) mod rep_block_size; a repetition block of size 0 gives InvalidFdeRepBlockSize for every address in range.", "quantifier": "every PcMask FDE, all address pairs (in a build with overflow checks, those at most i32::MAX behind its start)", "why_tests_cant": "relation between two unbounded lookups", "anchors": ["crates/sframe/src/read.rs: FuncDescEntry::get_fre_for_address"]}
{"id": "C21", "title": "Offset accessors honour section-wide fixed offsets", "statement": "`ra_offset`/`fp_offset` return the header's fixed offset when it is non-zero; otherwise RA is the second stored offset, FP the one after CFA and (stored) RA; `cfa_offset` is the first stored offset; each returns MissingFreOffset exactly when the row stores too few offsets.", "quantifier": "every row, every header", "why_tests_cant": "all combinations of fixed offsets and counts", "anchors": ["crates/sframe/src/read.rs: FrameRowEntry::cfa_offset, ra_offset, fp_offset"]}
{"id": "C22", "title": "FRE absolute start address", "statement": "`start_address()` of an FRE is the FDE start plus the row offset; a debug build panics exactly when that sum exceeds i32::MAX and a release build wraps.", "quantifier": "every FDE start, every row offset, both profiles", "why_tests_cant": "overflow corners", "anchors": ["crates/sframe/src/read.rs: FrameRowEntry::start_address"]}
{"id": "C23", "title": "Info-byte fields are independent", "statement": "For FRE info and FDE info bytes, each setter makes its getter return the value set and changes no other field, for every prior byte value; an offset count over 15 panics.", "quantifier": "every byte value, every field value", "why_tests_cant": "all 256 prior states x all values", "anchors": ["crates/sframe/src/raw/v2.rs: FreInfo, FdeInfo"]}
{"id": "C24", "title": "Row admission is exactly the documented rule", "statement": "`FuncDescBuilder::row` accepts a row iff its start is < 0x10000000, below the repetition size if any, below the function size, its RA/FP offsets are absent or equal to the section-wide fixed offset when there is one, and no row has that start; the error names the first violated rule; a refused row leaves the builder unchanged; an accepted row adds exactly that row with redundant fixed offsets dropped.", "quantifier": "every builder state, every row", "why_tests_cant": "full decision table over unbounded state", "anchors": ["crates/sframe/src/write.rs: FuncDescBuilder::row"]}
{"id": "C25", "title": "Required offsets are enforced", "statement": "A row without an RA offset (no fixed RA) or without FP offset (no fixed FP) is rejected with MissingRaOffset/MissingFpOffset, as the field documentation demands.", "quantifier": "every builder, every row", "why_tests_cant": "universal over rows", "anchors": ["crates/sframe/src/write.rs: FuncDescBuilder::row, FrameRowOffsets, FrameRowError"]}
{"id": "C26", "title": "Overlapping functions are rejected, and only those", "statement": "`build` returns OverlappingFdes exactly when two distinct functions of the builder have a.start <= b.start < a.start + a.size as integers (adjacent comparison suffices; addresses across zero included).", "quantifier": "every builder reachable through the API", "why_tests_cant": "pairs of functions anywhere in an unbounded table, incl. 32-bit wrap", "anchors": ["crates/sframe/src/write.rs: SFrameBuilder::build, Pairs"]}
{"id": "C27", "title": "build is total on API-reachable builders", "statement": "For any builder made by any sequence of API calls, `build` never panics in a release build; in a debug build it panics only if two neighbouring functions start more than i32::MAX apart.", "quantifier": "every API call sequence, both profiles", "why_tests_cant": "needs the invariant over all histories", "anchors": ["crates/sframe/src/write.rs: SFrameBuilder::build"]}
{"id": "C28", "title": "build emits the documented layout", "statement": "A successful `build` emits header (magic, version 2, flags, abi, fixed offsets, aux length 0, counts, lengths, offsets), then the FDE table sorted by start address, then the rows; each FDE's start offset points at its own rows; total length is 28 + 20*FDEs + FRE bytes.", "quantifier": "every API-reachable builder", "why_tests_cant": "unbounded tables", "anchors": ["crates/sframe/src/write.rs: SFrameBuilder::build", "crates/sframe/src/raw/v2.rs: Header, FuncDescEntry"]}
{"id": "C29", "title": "SectionTooLarge exactly when unrepresentable", "statement": "`build` returns SectionTooLarge exactly when (no overlap and) the number of functions times 20, the number of rows, or the FRE byte length exceeds u32::MAX.", "quantifier": "every API-reachable builder", "why_tests_cant": "would need >4 GiB inputs to test", "anchors": ["crates/sframe/src/write.rs: SFrameBuilder::build"]}
{"id": "C30", "title": "Header and FDE round trip", "statement": "Loading what `build` emitted with the same byte order succeeds and gives the same flags, ABI, fixed offsets, function and row counts, and for each function, in address order, the same start, size, type, repetition size, pauth key and number of rows.", "quantifier": "every API-reachable builder, both byte orders", "why_tests_cant": "unbounded builders", "anchors": ["crates/sframe/src/write.rs: SFrameBuilder::build", "crates/sframe/src/read.rs: SFrame::load"]}
{"id": "C31", "title": "Row round trip", "statement": "Reading back a built section yields for each function exactly the rows added to it, in start order, with the same start offset, base register, mangled flag, and CFA/RA/FP offsets.", "quantifier": "every API-reachable builder, both byte orders", "why_tests_cant": "every offset value and every mix of widths", "anchors": ["crates/sframe/src/write.rs: SFrameBuilder::build, FrameRowOffsets::offset_type", "crates/sframe/src/read.rs: FrameRowEntry::load"]}
{"id": "C32", "title": "Offset width always fits", "statement": "The offset width chosen for a row represents each of its offsets without truncation.", "quantifier": "every triple of 32-bit offsets", "why_tests_cant": "2^96 triples; fails only on a measure-zero tie", "anchors": ["crates/sframe/src/write.rs: FrameRowOffsets::offset_type"]}
{"id": "C33", "title": "Start-offset width always fits", "statement": "The FRE start-offset width chosen for a function represents every row start without truncation.", "quantifier": "every API-reachable function", "why_tests_cant": "boundaries 0x7f/0x7fff over unbounded row sets", "anchors": ["crates/sframe/src/write.rs: SFrameBuilder::build"]}
{"id": "C34", "title": "build is independent of insertion order", "statement": "Adding the same functions (distinct starts) in any order, or rows in any order, gives byte-identical output.", "quantifier": "all permutations", "why_tests_cant": "factorially many orders", "anchors": ["crates/sframe/src/write.rs: SFrameBuilder::fde, FuncDescBuilder::row, build"]}
{"id": "C35", "title": "Re-adding a function replaces it", "statement": "Adding a function whose start address is already present replaces the old one and leaves all others untouched; adding a function made with different options panics and nothing else does.", "quantifier": "every builder, every function", "why_tests_cant": "all histories", "anchors": ["crates/sframe/src/write.rs: SFrameBuilder::fde"]}
{"id": "C36", "title": "The sorted flag is truthful", "statement": "Every section the writer emits has FDE_SORTED set and its FDEs are strictly increasing in start address, and non-overlapping.", "quantifier": "every API-reachable builder", "why_tests_cant": "all histories", "anchors": ["crates/sframe/src/write.rs: SFrameOptions, SFrameBuilder::build"]}
{"id": "C37", "title": "Options setters", "statement": "A fixed offset of 0 is the same as None; `frame_pointer` changes only its flag bit; setters commute on different fields; the sorted flag cannot be cleared.", "quantifier": "every option value and setter sequence", "why_tests_cant": "all sequences", "anchors": ["crates/sframe/src/write.rs: SFrameOptions"]}
{"id": "C38", "title": "merge_adjacent_fres preserves unwinding", "statement": "After `merge_adjacent_fres` the row governing every offset (last row starting at or before it) has the same base register, mangled flag and CFA/RA/FP offsets as before, and exists iff it did.", "quantifier": "every builder, every offset", "why_tests_cant": "every row sequence, every offset", "anchors": ["crates/sframe/src/write.rs: FuncDescBuilder::merge_adjacent_fres"]}
{"id": "C39", "title": "merge_adjacent_fres is complete and idempotent", "statement": "It terminates, only removes rows, never the first, leaves no two neighbouring rows that differ only in start, and a second call changes nothing.", "quantifier": "every builder", "why_tests_cant": "unbounded loop", "anchors": ["crates/sframe/src/write.rs: FuncDescBuilder::merge_adjacent_fres"]}
{"id": "C40", "title": "merge_adjacent_fdes terminates and preserves unwinding", "statement": "`merge_adjacent_fdes` terminates and for every address the governing row found after merging equals the one before.", "quantifier": "every API-reachable builder, every address, both profiles", "why_tests_cant": "loop over mutable map; wrap-around corner cases", "anchors": ["crates/sframe/src/write.rs: SFrameBuilder::merge_adjacent_fdes"]}
{"id": "C41", "title": "merge_adjacent_fdes merges adjacent identical functions", "statement": "Two adjacent functions of equal size (<=255), equal key and equal rows are merged into one PcMask function.", "quantifier": "every builder", "why_tests_cant": "universal", "anchors": ["crates/sframe/src/write.rs: SFrameBuilder::merge_adjacent_fdes"]}
{"id": "C42", "title": "Debug and release builds agree", "statement": "Whenever a debug build does not panic, a release build returns the same result (all reader lookups, the writer and the converter).", "quantifier": "every input, every operation", "why_tests_cant": "two-run relation over all inputs", "anchors": ["crates/sframe/src/read.rs", "crates/sframe/src/write.rs", "crates/dwarf2sframe2/src/lib.rs"]}
{"id": "C43", "title": "Converter: ABI and fixed RA selection", "statement": "The ABI written is the one for (architecture, explicit endian or else the section's endian), INVALID for big-endian amd64; fixed RA is -8 exactly for little-endian amd64; FP is never fixed; flags are just FDE_SORTED.", "quantifier": "every options value and input", "why_tests_cant": "must hold for every conversion result", "anchors": ["crates/dwarf2sframe2/src/lib.rs: dwarf2sframe"]}
{"id": "C44", "title": "Converter: unrepresentable functions are reported", "statement": "The first function (in section order) with start > i32::MAX gives InvalidStartAddress, with length > i32::MAX gives InvalidFunctionLength, parse errors give their own variants; no partial result is returned.", "quantifier": "every entry sequence", "why_tests_cant": "first-error order over unbounded streams", "anchors": ["crates/dwarf2sframe2/src/lib.rs: Dwarf2SFrame::convert"]}
{"id": "C45", "title": "Converter: each row is translated faithfully or marked invalid", "statement": "A DWARF row becomes an SFrame row with the same start, base register and CFA/FP/RA offsets when its CFA is sp/fp+i32, FP is saved at an i32 offset, unchanged or undefined, and RA is saved at an i32 offset; any other row becomes an explicit invalid row at the same start; it never becomes a row with different rules.", "quantifier": "every row and architecture", "why_tests_cant": "all register rules x all 64-bit offsets", "anchors": ["crates/dwarf2sframe2/src/lib.rs: Dwarf2SFrame::convert_row"]}
{"id": "C46", "title": "Converter: output unwinds like the input", "statement": "For every function converted and every address inside it the governing row of the produced function is the translation of the DWARF row covering that address (with merging on or off).", "quantifier": "every well-formed DWARF input, every address", "why_tests_cant": "end-to-end over unbounded inputs", "anchors": ["crates/dwarf2sframe2/src/lib.rs: dwarf2sframe, convert, convert_row"]}
{"id": "C47", "title": "Converter never panics", "statement": "`dwarf2sframe` returns Ok or Err and never panics.", "quantifier": "every DWARF input, every option", "why_tests_cant": "malformed or unusual input", "anchors": ["crates/dwarf2sframe2/src/lib.rs: Dwarf2SFrame::convert"]}
{"id": "C48", "title": "Converter: zero-width rows have no effect", "statement": "Removing all zero-width rows from the input does not change the result.", "quantifier": "every DWARF input", "why_tests_cant": "relation between two runs", "anchors": ["crates/dwarf2sframe2/src/lib.rs: Dwarf2SFrame::convert"]}
{"id": "C49", "title": "Converter: diagnostics do not change the result", "statement": "Switching `warnings` (or `debugdump`) on or off does not change the produced builder or the error.", "quantifier": "every input, both settings", "why_tests_cant": "two-run relation", "anchors": ["crates/dwarf2sframe2/src/lib.rs: Dwarf2SFrame::warn, convert"]}
{"id": "C50", "title": "Converter: CIE cache is transparent", "statement": "Caching parsed CIEs by offset gives the same result as parsing the CIE anew for each FDE.", "quantifier": "every entry sequence", "why_tests_cant": "history-dependent state", "anchors": ["crates/dwarf2sframe2/src/lib.rs: Dwarf2SFrame::convert"]}
{"id": "C51", "title": "Converter: duplicate starts keep the last", "statement": "When several input functions share a start address, the result holds the conversion of the last one and one function per distinct start.", "quantifier": "every input", "why_tests_cant": "unbounded streams", "anchors": ["crates/dwarf2sframe2/src/lib.rs: convert", "crates/sframe/src/write.rs: SFrameBuilder::fde"]}
{"id": "C52", "title": "Converter output survives the file format", "statement": "Building and loading what the converter produced gives back, for every function and row, the converted rules (no value is truncated or shifted to another register).", "quantifier": "every conversion result", "why_tests_cant": "end-to-end over unbounded inputs", "anchors": ["crates/dwarf2sframe2/src/lib.rs", "crates/sframe/src/write.rs", "crates/sframe/src/read.rs"]}
{"id": "C53", "title": "CLI: base addresses", "statement": "The command-line converter passes to the DWARF parser the address of .eh_frame, .eh_frame_hdr, .text and .got as the respective bases.", "quantifier": "every object file", "why_tests_cant": "depends on which sections exist", "anchors": ["crates/dwarf2sframe2/src/main.rs: main"]}
{"id": "C54", "title": "CLI: output object", "statement": "On success the output object has the input's architecture and byte order and one .sframe section whose content is the built section in the file's byte order; every failure happens before the output file is written.", "quantifier": "every object file and every failure point", "why_tests_cant": "all failure points", "anchors": ["crates/dwarf2sframe2/src/main.rs: main"]}
{"id": "C55", "title": "sframedump lists every function and row", "statement": "The dump prints one function header per FDE in order and one line per readable row; a row that fails to decode ends only that function's listing.", "quantifier": "every loaded section", "why_tests_cant": "unbounded sections", "anchors": ["crates/sframedump/src/main.rs: dump"]}
{"id": "C56", "title": "Legacy converter: same rows, or an error", "statement": "The legacy `dwarf2sframe` tool never emits a row with different rules than the DWARF row it came from, and converts whatever the newer tool converts.", "quantifier": "every DWARF input", "why_tests_cant": "relation between tools", "anchors": ["crates/dwarf2sframe/src/main.rs: main"]}
{"id": "C57", "title": "Legacy converter: declared ABI matches the input", "statement": "The section the legacy tool emits declares the architecture of the input file and is written in that file's byte order.", "quantifier": "every object file", "why_tests_cant": "depends on host and file", "anchors": ["crates/dwarf2sframe/src/main.rs: main"]}
{"id": "C58", "title": "Converter: merging options", "statement": "The merging options change neither which error is reported nor whether the converter panics; merging of functions leaves the result as it is; merging of rows acts as `merge_adjacent_fres` on each function of the unmerged result.", "quantifier": "every input, all settings", "why_tests_cant": "relation between runs", "anchors": ["crates/dwarf2sframe2/src/lib.rs: dwarf2sframe, Dwarf2SFrame::convert", "crates/sframe/src/write.rs: merge_adjacent_fres, merge_adjacent_fdes"]}
{"id": "C59", "title": "Converter: warnings are complete and precise", "statement": "With warnings on, a successful conversion reports exactly one warning per row of nonzero width that SFrame cannot express, in input order, naming function, offset and the first reason; with warnings off it reports none.", "quantifier": "every input", "why_tests_cant": "unbounded streams", "anchors": ["crates/dwarf2sframe2/src/lib.rs: Dwarf2SFrame::warn, convert_row"]}
{"id": "C60", "title": "Dumper: byte order of the input", "statement": "sframedump prints the section of every object file that contains a valid .sframe section in the byte order of the object file.", "quantifier": "every object file, both host byte orders", "why_tests_cant": "needs objects and hosts of both byte orders", "anchors": ["crates/sframedump/src/main.rs: main"]}
{"id": "C61", "title": "Dumper: the text is unambiguous", "statement": "The text sframedump prints on stdout determines the header, functions and rows it describes: two listings have the same text exactly if they consist of the same lines, up to the base register of a row with unknown CFA (printed as u) and the decoding errors (which go to stderr).", "quantifier": "every pair of listings", "why_tests_cant": "ranges over all pairs of listings of any length", "anchors": ["crates/sframedump/src/main.rs: dump"]}
{"id": "C62", "title": "Dumper: a built section is listed as built", "statement": "The dump of a built section panics exactly if some row starts outside its function or, in debug builds, at an address above i32::MAX. Otherwise it lists the header and, in order of start, every function with one line per row; the line of each row shows the builder's values for every function whose rows can be stored at all (C31), and what is read of the row for the others.", "quantifier": "every builder reachable through the API, both byte orders, both profiles", "why_tests_cant": "composes builder, writer, reader and dumper over unbounded inputs", "anchors": ["crates/sframe/src/write.rs: SFrameBuilder::build", "crates/sframedump/src/main.rs: dump"]}
{"id": "C63", "title": "End to end: from DWARF to the listing", "statement": "If dwarf2sframe2 succeeds on a file then sframedump, run on the object it wrote on a host of the same byte order, lists every DWARF function (the last one of those with the same start), and at every address that a row of the function covers, the line in force shows the DWARF rules of that row or `u` if SFrame cannot express them; provided the DWARF rows are in order (in rows with a width tie, C31, the offsets of the largest magnitude are shown as negative numbers) and, for debug builds of sframedump, do not start above i32::MAX. Assumes that the object crate reads back the sections it emits.", "quantifier": "every input file and environment", "why_tests_cant": "composes two tools over unbounded inputs", "anchors": ["crates/dwarf2sframe2/src/main.rs: main", "crates/sframedump/src/main.rs: main"]}
{"id": "C64", "title": "Row lookup: all function types", "statement": "get_fre_for_address returns the first row that applies by the documented condition of the function's type (PC >= START, PC % REP >= START, PC & START >= START); an earlier row that cannot be decoded is reported as its error, an earlier row that starts outside the function panics, and a PcMask function with repetition size 0 is reported as InvalidFdeRepBlockSize.", "quantifier": "every function entry, all offsets (in a build with overflow checks, those up to i32::MAX)", "why_tests_cant": "ranges over all row tables and offsets", "anchors": ["crates/sframe/src/read.rs: FuncDescEntry::get_fre_for_address, FdeType"]}
{"id": "C65", "title": "Builder: different sections, different bytes", "statement": "Two builders that are built to the same bytes are equal.", "quantifier": "every pair of builders reachable through the API", "why_tests_cant": "ranges over pairs of unbounded builders", "anchors": ["crates/sframe/src/write.rs: SFrameBuilder::build"]}
{"id": "C66", "title": "Merging rows never makes a section larger", "statement": "If a section can be built then it can be built after merge_adjacent_fres was called on its functions, and is not larger; likewise the output of the converter with merge_fres.", "quantifier": "every reachable builder, every DWARF input", "why_tests_cant": "relation between runs on unbounded inputs", "anchors": ["crates/sframe/src/write.rs: FuncDescBuilder::merge_adjacent_fres, SFrameBuilder::build", "crates/dwarf2sframe2/src/lib.rs: dwarf2sframe"]}
{"id": "C67", "title": "Debug output of a section", "statement": "Printing a section with `{:?}` panics exactly if some row of some function starts at or after the end of its function and no row of the function before it is undecodable; otherwise it shows the header fields and, in order, of every function the values its accessors give and its rows up to and including the first undecodable one.", "quantifier": "every section", "why_tests_cant": "unbounded sections", "anchors": ["crates/sframe/src/read.rs: Debug for SFrame, FuncDescEntry, FrameRowEntry"]}
{"id": "C68", "title": "Converter: signed return addresses", "statement": "A row for which DWARF says that the return address is signed (RA_SIGN_STATE = 1 on AArch64) is converted to a row with mangled_ra_p set, and a row for which it is not signed to one without.", "quantifier": "every successful conversion, every address", "why_tests_cant": "ranges over all DWARF inputs", "anchors": ["crates/dwarf2sframe2/src/lib.rs: convert_row", "crates/sframe/src/write.rs: FrameRowBuilder::mangled_ra_p"]}
{"id": "C69", "title": "End to end: walking the stack", "statement": "Walking a stack with a converted, written and loaded section (rules looked up by exhaustive search) visits the same frames, with the same program counter, stack pointer and, where the SFrame walk knows it, frame pointer as walking it with the DWARF rules, for walks of any length through rows that SFrame can express.", "quantifier": "every conversion, every memory content, every walk", "why_tests_cant": "ranges over all inputs, stacks and walk lengths", "anchors": ["crates/dwarf2sframe2/src/lib.rs: dwarf2sframe, convert_row", "crates/sframe/src/write.rs: SFrameBuilder::build", "crates/sframe/src/read.rs: FrameRowEntry::cfa_offset, ra_offset, fp_offset"]}
{"id": "C70", "title": "End to end: the reader's own lookups", "statement": "In a converted, written and loaded section, fde_for_address followed by get_fre_for_address gives at every address covered by a DWARF row the rules of that row.", "quantifier": "every conversion, every address", "why_tests_cant": "ranges over all inputs and addresses", "anchors": ["crates/dwarf2sframe2/src/lib.rs: dwarf2sframe", "crates/sframe/src/read.rs: SFrame::fde_for_address, FuncDescEntry::get_fre_for_address"]}
{"id": "C71", "title": "Errors of the sframe crate: the text is unambiguous", "statement": "Two errors of the reader with the same text are equal; likewise two errors of adding a row, and two errors of building a section.", "quantifier": "every pair of errors", "why_tests_cant": "ranges over all pairs of error values", "anchors": ["crates/sframe/src/error.rs: Display for Error", "crates/sframe/src/write.rs: FrameRowError, EmitError"]}
{"id": "C72", "title": "Errors of the converter: the text is unambiguous", "statement": "The text of an error of the converter determines the kind of error and the function or row it is about.", "quantifier": "every pair of errors", "why_tests_cant": "ranges over all pairs of error values", "anchors": ["crates/dwarf2sframe2/src/error.rs: Display for Error"]}
{"id": "C73", "title": "Errors name the limit that was exceeded", "statement": "The limits that the texts of errors state are those at which the code refuses the input, and the reason that they state is the reason for which it was refused.", "quantifier": "every refused input", "why_tests_cant": "ranges over all inputs at and around the limits", "anchors": ["crates/dwarf2sframe2/src/error.rs: Display for Error", "crates/sframe/src/error.rs", "crates/dwarf2sframe2/src/lib.rs: convert", "crates/sframe/src/write.rs: FuncDescBuilder::row"]}
{"id": "C74", "title": "Which errors the reader can report", "statement": "Loading a section reports exactly the header errors, iterating over rows exactly the errors of decoding a row, the offset accessors only MissingFreOffset, and row lookup only an error of decoding a row or InvalidFdeRepBlockSize.", "quantifier": "every byte string, every iterator, every row", "why_tests_cant": "ranges over all inputs", "anchors": ["crates/sframe/src/read.rs: SFrame::load, FrameRowIter::next, FrameRowEntry, get_fre_for_address"]}
{"id": "C75", "title": "Warnings of the converter: the text is unambiguous", "statement": "The line that the converter prints for a warning determines the function, the row and the reason, provided gimli's names of registers are distinct and look like names.", "quantifier": "every pair of warnings", "why_tests_cant": "ranges over all pairs of warnings", "anchors": ["crates/dwarf2sframe2/src/lib.rs: Dwarf2SFrame::warn, convert_row", "crates/dwarf2sframe2/src/display.rs"]}
{"id": "C76", "title": "FDE iterator: any mixture of calls", "statement": "Any sequence of calls of next, nth and next_back on fdes() gives the functions of the table at the positions that a double-ended iterator would give: no position twice, the remaining length exact after every call. The entries from next have their own rows, those from nth and next_back the row area of the whole section (C07, C08).", "quantifier": "every loadable section, every sequence of calls", "why_tests_cant": "ranges over all sequences of calls", "anchors": ["crates/sframe/src/read.rs: Iterator, DoubleEndedIterator, ExactSizeIterator for FuncDescIter"]}
{"id": "C77", "title": "Reader: work is bounded by the input", "statement": "A section of n bytes has at most n/17 functions, and iterating over the rows of one of them yields at most n/2 items, whatever counts the header and the FDEs announce.", "quantifier": "every byte string", "why_tests_cant": "ranges over all hostile headers", "anchors": ["crates/sframe/src/read.rs: SFrame::load, FuncDescIter, FreIter"]}
{"id": "C78", "title": "Reader: rows are local", "statement": "The rows of a function depend only on its FDE and on the bytes of these rows: functions of different sections with equal FDEs and the same bytes at the place they point at have the same rows, whatever else the sections contain.", "quantifier": "every pair of sections", "why_tests_cant": "relation between two runs", "anchors": ["crates/sframe/src/read.rs: FuncDescEntry::iter, FreIter::next, FrameRowEntry::load"]}
{"id": "C79", "title": "Builder and reader: byte order is transparent", "statement": "Building the same section in the two byte orders fails alike, or gives sections of the same length that read back as the same header, functions and rows, with the same offsets.", "quantifier": "every builder reachable through the API", "why_tests_cant": "relation between two runs on unbounded inputs", "anchors": ["crates/sframe/src/write.rs: SFrameBuilder::build", "crates/sframe/src/read.rs: SFrame::load"]}
{"id": "C80", "title": "Converter: order of the input", "statement": "Whether the conversion succeeds does not depend on the order of the entries of .eh_frame nor on where CIEs stand; if it succeeds and no two functions have the same start, the result is the same too.", "quantifier": "every pair of .eh_frame sections with the same FDEs in any order", "why_tests_cant": "relation between two runs on unbounded inputs", "anchors": ["crates/dwarf2sframe2/src/lib.rs: dwarf2sframe, convert"]}
{"id": "C81", "title": "Converter: what of the input matters", "statement": "The result of the conversion, including errors, panics and warnings, depends only on the start and length of each function and, of each row, on its start, whether it is empty, the CFA rule (not on the expression in it) and the rules for the frame pointer and the return address; on the instructions only if debugdump is set.", "quantifier": "every pair of inputs that agree in these", "why_tests_cant": "relation between two runs on unbounded inputs", "anchors": ["crates/dwarf2sframe2/src/lib.rs: convert, convert_row"]}
{"id": "C82", "title": "Converter: moving the code", "statement": "If the addresses of all functions and rows are moved by the same distance, and the starts stay below 2^31, the conversion succeeds as before and the functions of the result are the same, moved by that distance.", "quantifier": "every successful conversion, every distance", "why_tests_cant": "relation between two runs on unbounded inputs", "anchors": ["crates/dwarf2sframe2/src/lib.rs: convert, convert_row"]}
{"id": "C83", "title": "Reader on 32-bit targets", "statement": "On a target with 32-bit usize, SFrame::load returns for every input what it returns on a 64-bit target, and in particular does not panic.", "quantifier": "every byte string shorter than 2^31, both profiles", "why_tests_cant": "ranges over all hostile headers; tests run on 64-bit hosts", "anchors": ["crates/sframe/src/read.rs: SFrame::load"]}
{"id": "C84", "title": "Listing of call frame instructions: unambiguous", "statement": "The text that debugdump prints for the instructions of a CIE or FDE, together with its result, determines the instructions, including the operations of expressions, up to the first that cannot be decoded.", "quantifier": "every pair of lists of instructions", "why_tests_cant": "ranges over all pairs of instruction lists", "anchors": ["crates/dwarf2sframe2/src/dump.rs: dump_cfi_instructions, dump_expression", "crates/dwarf2sframe2/src/lib.rs: convert"]}
{"id": "C85", "title": "Listing of call frame instructions by the legacy tools: unambiguous", "statement": "The text that dwarfdump and the legacy converter print for a list of instructions, together with its result, determines the instructions, including the operations of expressions with their base types, up to the first that cannot be decoded.", "quantifier": "every pair of lists of instructions", "why_tests_cant": "ranges over all pairs of instruction lists", "anchors": ["crates/dwarf2sframe/src/bin/dwarfdump.rs: dump_cfi_instructions, dump_expression", "crates/dwarf2sframe/src/dump.rs: dump_cfi_instructions, dump_expression"]}
{"id": "C86", "title": "dwarfdump: success means a complete dump", "statement": "If dwarfdump exits successfully then stdout describes every entry of .eh_frame, in order, with all its instructions.", "quantifier": "every file, every entry", "why_tests_cant": "ranges over all sections and all places at which decoding can fail", "anchors": ["crates/dwarf2sframe/src/bin/dwarfdump.rs: main, dump_eh_frame"]}
{"id": "C87", "title": "dwarfdump does not panic", "statement": "dwarfdump does not panic, whatever its arguments and input.", "quantifier": "every command line, every file, both profiles", "why_tests_cant": "ranges over all inputs", "anchors": ["crates/dwarf2sframe/src/bin/dwarfdump.rs: main, dump_eh_frame"]}
{"id": "C88", "title": "dwarfdump: base addresses", "statement": "The base addresses with which dwarfdump has pointers decoded are the addresses of the sections of the file, and what gimli would say with other bases, another address size or another vendor has no effect.", "quantifier": "every file", "why_tests_cant": "ranges over all section tables; relation between two runs", "anchors": ["crates/dwarf2sframe/src/bin/dwarfdump.rs: dump_eh_frame"]}
{"id": "C89", "title": "dwarfdump: register names", "statement": "The names of registers in the dump are those of the architecture of the file.", "quantifier": "every file, every register", "why_tests_cant": "ranges over all architectures and registers", "anchors": ["crates/dwarf2sframe/src/bin/dwarfdump.rs: arch_register_name"]}
{"id": "C90", "title": "dwarfdump: unambiguous", "statement": "The text of a dump, together with its result, determines the entries of the section with all their fields and instructions, up to the place at which the dump stops.", "quantifier": "every pair of sections of the same architecture", "why_tests_cant": "ranges over all pairs of sections", "anchors": ["crates/dwarf2sframe/src/bin/dwarfdump.rs: dump_eh_frame"]}
{"id": "C91", "title": "Output of the converter", "statement": "With the debug dump on, stdout shows every function converted, in the order of the input, with its instructions and rows, and if the conversion fails or panics, what comes before the place of failure; stderr has exactly the warnings for the rows converted. Without debug dump and warnings nothing is printed.", "quantifier": "every section, all options, both profiles", "why_tests_cant": "ranges over all sections and all places at which the conversion can stop", "anchors": ["crates/dwarf2sframe2/src/lib.rs: convert"]}
{"id": "C92", "title": "Debug dump of the converter: unambiguous", "statement": "The text of the debug dump determines the functions of the section with their instructions and rows.", "quantifier": "every pair of sections of the same architecture", "why_tests_cant": "ranges over all pairs of sections", "anchors": ["crates/dwarf2sframe2/src/lib.rs: convert", "crates/dwarf2sframe2/src/display.rs: RegisterRule", "crates/dwarf2sframe2/src/dump.rs: dump_cfi_instructions"]}
{"id": "C93", "title": "Debug dump of the converter: sufficient", "statement": "Two sections of the same byte order for which the converter prints the same debug dump are converted to the same SFrame section with the same warnings.", "quantifier": "every pair of sections, all options", "why_tests_cant": "relation between two runs over all pairs of sections", "anchors": ["crates/dwarf2sframe2/src/lib.rs: convert, convert_row"]}
{"id": "C94", "title": "Output of the legacy converter", "statement": "The legacy converter shows on stdout the addresses of the sections and every function converted, in the order of the input, with its instructions, its rows and the offsets stored for each; on stderr, in their place among these, the reasons why a row is not expressed. If the conversion fails or panics, what is printed is that of everything before the place of failure.", "quantifier": "every file, both profiles", "why_tests_cant": "ranges over all sections and all places at which the conversion can stop", "anchors": ["crates/dwarf2sframe/src/main.rs: main", "crates/dwarf2sframe/src/fmthelp.rs: RegisterRule, dump_expression"]}
{"id": "C95", "title": "Legacy converter: messages", "statement": "The legacy converter prints a message on stderr about exactly those rows whose rules SFrame cannot express; a run without messages has lost nothing.", "quantifier": "every section", "why_tests_cant": "ranges over all rules", "anchors": ["crates/dwarf2sframe/src/main.rs: main (row closure)"]}
{"id": "C96", "title": "Legacy converter: register names", "statement": "The names of registers in the output of the legacy converter are those of the architecture of the file.", "quantifier": "every file, every register", "why_tests_cant": "ranges over all architectures and registers", "anchors": ["crates/dwarf2sframe/src/main.rs: main (register_name)", "crates/dwarf2sframe/src/fmthelp.rs: regname"]}
{"id": "C97", "title": "Output of the legacy converter: unambiguous", "statement": "The text that the legacy converter prints on stdout determines the functions of the section with their instructions and rows.", "quantifier": "every pair of files of the same architecture that are converted", "why_tests_cant": "ranges over all pairs of files; texts of several lines run into each other", "anchors": ["crates/dwarf2sframe/src/main.rs: main", "crates/dwarf2sframe/src/fmthelp.rs: RegisterRule, dump_expression"]}
{"id": "C98", "title": "Output of the legacy converter: sufficient", "statement": "Two files of the same architecture for which the legacy converter prints the same text on stdout are converted to the same SFrame section.", "quantifier": "every pair of files that are converted, on hosts of the same byte order", "why_tests_cant": "relation between two runs over all pairs of files", "anchors": ["crates/dwarf2sframe/src/main.rs: main"]}
{"id": "C99", "title": "From instructions to rules", "statement": "At every address of a converted function, the section as written and read back gives the rules that the call frame instructions of the function establish there (DWARF 5, 6.4.3) if SFrame can express them, else none; at all other addresses it gives none.", "quantifier": "every section that is converted without a width tie (C31; there is none if nothing is saved above the CFA), all instructions, all addresses", "why_tests_cant": "the standard's interpretation of instruction sequences against the whole pipeline, at every address", "anchors": ["crates/dwarf2sframe2/src/lib.rs: Dwarf2SFrame::convert", "crates/sframe/src/write.rs: SFrameBuilder::build", "crates/sframe/src/read.rs: SFrame::load"]}
{"id": "C100", "title": "The two converters compared", "statement": "Given the same section, the converter for AMD64 and the legacy converter write sections that give the same rules at every address that a DWARF row covers, except exactly where the row can be expressed but for a rule for RBP other than undefined, same value or offset; there the first gives no rules and the legacy one says that RBP is unchanged. Outside the functions both give none.", "quantifier": "every section that both convert, rows in order, all addresses, both byte orders", "why_tests_cant": "relation between two programs over all inputs, at every address", "anchors": ["crates/dwarf2sframe2/src/lib.rs: Dwarf2SFrame::convert", "crates/dwarf2sframe/src/main.rs: main", "crates/sframe/src/write.rs: SFrameBuilder::build"]}
{"id": "C101", "title": "Walking the stack with a section of the legacy converter", "statement": "A walker that uses the section of the legacy converter sees the same program counters, stack pointers and frame pointers as a DWARF walker as long as it gets on; it stops at the first row that cannot be expressed.", "quantifier": "every section, every state of registers and memory, walks of any length", "why_tests_cant": "ranges over all machine states and stacks", "anchors": ["crates/dwarf2sframe/src/main.rs: main (row closure)", "crates/sframe/src/write.rs: SFrameBuilder::build"]}
{"id": "C102", "title": "Which call frame instructions are converted", "statement": "A section is converted exactly if for every function start and length are below 2^31, no instruction goes to a location beyond the end of the function or, with addresses left, 2^28 bytes or more into it, and on little-endian AMD64 the return address is at CFA-8 at every address at which SFrame can express the rules (and the debug dump, if on, meets no undecodable expression).", "quantifier": "every section whose rows gimli gives without an error, all instructions, both profiles", "why_tests_cant": "exact condition over all instruction sequences and addresses", "anchors": ["crates/dwarf2sframe2/src/lib.rs: Dwarf2SFrame::convert", "crates/sframe/src/write.rs: FuncDescBuilder::row"]}
{"id": "C103", "title": "Legacy converter: from instructions to rules", "statement": "At every address of a function converted by the legacy converter, the section as written and read back gives the rules that the call frame instructions of the function establish there if SFrame can express them, else none; at all other addresses it gives none.", "quantifier": "every section that is converted without a width tie (C31), all instructions, all addresses", "why_tests_cant": "the standard's interpretation of instruction sequences against the whole pipeline, at every address", "anchors": ["crates/dwarf2sframe/src/main.rs: main (row closure)", "crates/sframe/src/write.rs: SFrameBuilder::build", "crates/sframe/src/read.rs: SFrame::load"]}
{"id": "C104", "title": "Legacy converter: which call frame instructions are converted", "statement": "The legacy converter converts a section exactly if for every function start and length are below 2^31, every location that the instructions go to is after the one before, inside the function and less than 2^28 bytes into it, and all expressions that it prints can be decoded.", "quantifier": "every section whose rows gimli gives without an error, with at most one rule for a register, all instructions, both profiles", "why_tests_cant": "exact condition over all instruction sequences and addresses", "anchors": ["crates/dwarf2sframe/src/main.rs: main", "crates/sframe/src/write.rs: FuncDescBuilder::row"]}
{"id": "C105", "title": "sframedump: a success means that the listing was written", "statement": "If sframedump reports success, stdout has taken the whole listing of the section.", "quantifier": "every input, every stdout, which may refuse bytes at any time", "why_tests_cant": "ranges over all ways in which a stream can fail", "anchors": ["crates/sframedump/src/main.rs: main, dump"]}
{"id": "C106", "title": "dwarfdump: a silent success means that the dump was written", "statement": "If dwarfdump ends without a message on stderr and without a panic, stdout has taken everything it prints; what stdout has taken is always the start of that.", "quantifier": "every input, every stdout, which may refuse bytes at any time", "why_tests_cant": "ranges over all ways in which a stream can fail", "anchors": ["crates/dwarf2sframe/src/bin/dwarfdump.rs: main, dump_file"]}
{"id": "C107", "title": "Converters: the result does not depend on the diagnostics", "statement": "The file that a converter writes, and whether it succeeds, does not depend on whether its diagnostics can be printed.", "quantifier": "every input, every pair of streams, which may fail at any print", "why_tests_cant": "ranges over all ways in which a stream can fail", "anchors": ["crates/dwarf2sframe2/src/lib.rs: Dwarf2SFrame::convert", "crates/dwarf2sframe/src/main.rs: main", "crates/dwarf2sframe2/src/main.rs: main", "crates/dwarf2sframe2/src/dump.rs"]}
{"id": "C108", "title": "sframedump: arguments and exit code", "statement": "sframedump ends with code 0 exactly if help was asked for, which is then all it prints, or exactly one file was given, the file is readable, its .sframe section loads, and the whole listing was printed; it always ends, and ends with code 1 exactly if it reports an error, having printed nothing else. Without exactly one file nothing depends on the files there are.", "quantifier": "every list of arguments (whatever getopts makes of it), every file system, both profiles", "why_tests_cant": "ranges over all arguments, files and sections", "anchors": ["crates/sframedump/src/main.rs: main"]}
{"id": "C109", "title": "The report of an error says what failed", "statement": "If a tool reports an error, the step it reports is the first one that failed; the first line of the report tells the steps apart, and names the file, section or architecture, or the kind of information, that the step is about; the report ends with the text of the error of the operating system, of another crate or of the sframe crate that made the step fail, if there was one. The exit code is 0 exactly if the tool succeeded, 1 exactly if it reports an error, 101 exactly if it panicked.", "quantifier": "every run of the two converters and of sframedump that ends with an error", "why_tests_cant": "relation between two runs over all inputs and ways to fail", "anchors": ["crates/sframedump/src/main.rs: main", "crates/dwarf2sframe/src/main.rs: main", "crates/dwarf2sframe2/src/main.rs: main"]}
{"id": "C110", "title": "Rewriting a built section reproduces it", "statement": "A program that loads a section built by the crate, and adds for every function read and every row read a function and row with what the accessors say, gets a builder that builds the same bytes, and gives the same result as the first builder in either byte order and profile. If a row starts behind the end of its function, reading panics instead.", "quantifier": "every builder whose rows and options are made by the public functions and which builds", "why_tests_cant": "ranges over all builders; relates reader and writer", "anchors": ["crates/sframe/src/read.rs: SFrame::load_bytes, FuncDescEntry, FrameRowEntry", "crates/sframe/src/write.rs: SFrameBuilder, FuncDescBuilder, FrameRowBuilder"]}
{"id": "C111", "title": "The printed text of a section tells what is shown", "statement": "Two sections that are printed as the same text by {:?} or {:#?} were printed in the same one of the two layouts, have the same header, and have in the same places functions for which the accessors give the same values and rows that decode to the same values or the same error. {:?} gives a single line, {:#?} more than one; printing panics exactly if a row starts outside its function.", "quantifier": "every pair of sections, in any byte order; for every way in which the c_enum crate may show its two enumerations that tells the number and uses no character of the layout", "why_tests_cant": "relation between two runs over all sections", "anchors": ["crates/sframe/src/read.rs: Debug for SFrame, FuncDescEntry, FrameRowEntry", "crates/sframe/src/raw/mod.rs: Preamble, Flags", "crates/sframe/src/raw/v2.rs: FdeType, FreType, FreOffset", "crates/sframe/src/error.rs: ReadError"]}
{"id": "C112", "title": "Merging functions never makes a section larger", "statement": "If a section can be built and merge_adjacent_fdes returns, the section can be built afterwards and is not larger; it is smaller exactly if any functions were merged.", "quantifier": "every reachable builder, both profiles, both byte orders", "why_tests_cant": "ranges over all builders; sizes depend on all functions and rows", "anchors": ["crates/sframe/src/write.rs: SFrameBuilder::merge_adjacent_fdes, SFrameBuilder::build"]}
{"id": "C113", "title": "Rewriting a section of any program keeps what it says", "statement": "A program that loads a section made by any program, in version 1 or 2, and adds its functions and rows to a builder gets, if that builds, a section of version 2 with the same ABI, fixed offsets and frame pointer flag, whose functions are those of the old one in order of start (the last of several with the same start), with the same size, key, type and repetition size, and whose rows, in order of start, tell the same as the old ones. The builder takes the section exactly if it loads and in each function all rows can be read, no two start at the same place and none starts at 2^28 or later.", "quantifier": "every byte string, both byte orders and profiles", "why_tests_cant": "ranges over all sections; relates reader and writer", "anchors": ["crates/sframe/src/read.rs: SFrame::load_bytes, FuncDescEntry, FrameRowEntry", "crates/sframe/src/write.rs: SFrameBuilder, FuncDescBuilder, FrameRowBuilder"]}
{"id": "C114", "title": "Truncated sections are refused", "statement": "Of a section that loads, a prefix loads exactly if it contains all parts the header tells of, and is then the same section; otherwise the error is UnexpectedEof. A section that was built is refused whatever is cut off its end.", "quantifier": "every section, every length, both byte orders", "why_tests_cant": "ranges over all sections and all lengths", "anchors": ["crates/sframe/src/read.rs: SFrame::load_bytes", "crates/sframe/src/write.rs: SFrameBuilder::build"]}
{"id": "C115", "title": "Lookups in sorted sections look at few functions", "statement": "fde_for_address in a section of n functions with the sorted flag looks at no more than log2(n) + 2 of them: with any other functions in the other places the answer (a function, none or a panic) is the same.", "quantifier": "every section, every address, both profiles, both search algorithms of the standard library", "why_tests_cant": "ranges over all sections and everything that could stand in the other places", "anchors": ["crates/sframe/src/read.rs: SFrame::fde_for_address"]}
{"id": "C116", "title": "sframedump: columns stand under their headings", "statement": "In every line that sframedump prints for a row, the CFA, FP and RA begin in the columns in which CFA, FP and RA stand in the heading of the function.", "quantifier": "every row", "why_tests_cant": "ranges over all offsets", "anchors": ["crates/sframedump/src/main.rs: dump"]}
{"id": "C117", "title": "Converter: options are what was last set", "statement": "After Options::new(arch, bases) and any calls of the setters each option is what the last call of its setter gave, and otherwise the default (merging on, warnings and dump off, no endian); calls for different options may change places; every combination can be made. The program sets the options from its flags and the file, and merges exactly without --no-opt.", "quantifier": "every sequence of calls, every value of the flags", "why_tests_cant": "ranges over all sequences of calls", "anchors": ["crates/dwarf2sframe2/src/lib.rs: Options", "crates/dwarf2sframe2/src/main.rs: main"]}
{"id": "C118", "title": "The function info byte is that of the SFrame format", "statement": "Of every function in a section the reader gives the type, the key and the row type that the format keeps in bits 4, 5 and 0-3 of the info byte; of every function the writer stores them there; so do both converters.", "quantifier": "every section, every builder, every input of the converters, both byte orders", "why_tests_cant": "ranges over all sections; the crate's own tests only read what it wrote", "anchors": ["crates/sframe/src/raw/v2.rs: FdeInfo", "crates/sframe/src/read.rs: FuncDescEntry::fdetype, pauth_key", "crates/sframe/src/write.rs: SFrameBuilder::build", "crates/dwarf2sframe2/src/lib.rs: Dwarf2SFrame::convert", "crates/dwarf2sframe/src/main.rs: main"]}
{"id": "C119", "title": "Printed numbers read back as themselves", "statement": "Every number that a program prints, decimal or hexadecimal, with or without sign, prefix and leading zeros, is a numeral that stands for that number; a number padded to a width has that width if it fits; a pointer has 18 characters, and stands in parentheses exactly if it is indirect; truth values are printed as true and false.", "quantifier": "every number of the type that is printed", "why_tests_cant": "ranges over all numbers; a wrong base or sign can still be injective", "anchors": ["crates/sframedump/src/main.rs: dump", "crates/dwarf2sframe/src/bin/dwarfdump.rs: dump_pointer", "crates/dwarf2sframe/src/main.rs: main", "crates/sframe/src/error.rs: ReadError"]}
{"id": "C120", "title": "Behind each label of a printed section stands the value of that name", "statement": "A reader that knows only brackets, commas and labels finds in the {:?} text of a section, behind each label, the value of that name: the numbers, types, key and repetition size that the accessors of the section and its functions give, and for every row its start, base register, mangled flag and offsets, or the name of the error and the value it carries. The {:#?} text is the same up to spaces, line breaks and the commas before closing brackets.", "quantifier": "every section that can be printed, in any byte order; every read error", "why_tests_cant": "ranges over all sections and rows", "anchors": ["crates/sframe/src/read.rs: Debug for SFrame, FuncDescEntry, FrameRowEntry", "crates/sframe/src/raw/mod.rs: Preamble, Flags", "crates/sframe/src/raw/v2.rs: FdeType, FreType, FreOffset", "crates/sframe/src/error.rs: ReadError"]}
{"id": "C121", "title": "What a message says of the input is so", "statement": "Every message with which a row, a section or a conversion is refused, or with which a row of a section is not read, begins in one of a few ways, names the quantity or register it is about, and is true of what was refused: the numbers in it are those of the input, and the condition it states holds. So do the lines of warnings, which name the function, the offset and the rule or register; and the lines that the legacy converter prints for a row tell its range, CFA and rules.", "quantifier": "every refused input, every warning, every row", "why_tests_cant": "ranges over all refused inputs", "anchors": ["crates/sframe/src/error.rs: ReadError", "crates/sframe/src/write.rs: FrameRowError, EmitError", "crates/dwarf2sframe2/src/error.rs: Error", "crates/dwarf2sframe2/src/lib.rs: warn, convert_row", "crates/dwarf2sframe2/src/display.rs", "crates/dwarf2sframe/src/main.rs: main", "crates/dwarf2sframe/src/fmthelp.rs: RegisterRule"]}
{"id": "C122", "title": "sframedump: the listing reads back as the section", "statement": "A reader that knows only words, labels and numerals finds in the text that sframedump prints, whenever it succeeds, the header of the section, and function by function its number, address, size and type (by the mark in the heading) and every row that can be decoded with its address, CFA, FP, RA and mark of a signed return address. For a built section these are what was put into the builder.", "quantifier": "every section, every file on which the tool succeeds, every builder with storable rows", "why_tests_cant": "ranges over all sections; needs a reader of the text", "anchors": ["crates/sframedump/src/main.rs: dump, main"]}
{"id": "C123", "title": "Call frame instructions are listed under their names, with their operands", "statement": "In a listing of call frame instructions every instruction stands on a line with the name that DWARF gives it and, in the order of DWARF, its operands: registers by name or number, numbers as numerals of the value. Behind it stand the operations of its expression in the same way, indented further.", "quantifier": "every list of instructions, whether they can be decoded or not; every table of register names that are distinct and contain no space or comma", "why_tests_cant": "ranges over all instructions and operands", "anchors": ["crates/dwarf2sframe2/src/dump.rs: dump_cfi_instructions, dump_expression", "crates/dwarf2sframe/src/dump.rs", "crates/dwarf2sframe/src/bin/dwarfdump.rs: dump_cfi_instructions, dump_expression"]}
{"id": "C124", "title": "dwarfdump: the entries read back", "statement": "A reader that splits lines at the colon finds in what dwarfdump prints for a section, entry by entry and in their order, whether it is a CIE or an FDE, its offset, behind each label the value of that name (optional fields exactly if the entry has them; the end of a function behind its size), and its instructions or why the FDE could not be parsed.", "quantifier": "every file on which the tool succeeds without a message; otherwise every entry before the place where it stops", "why_tests_cant": "ranges over all entries; needs a reader of the text", "anchors": ["crates/dwarf2sframe/src/bin/dwarfdump.rs: dump_eh_frame, dump_pointer"]}
{"id": "C125", "title": "Address lookups never panic", "statement": "`fde_for_address` and `get_fre_for_address` return for every section that loads, every function in it and every address.", "quantifier": "every section, every function, every address, both profiles, both search algorithms of the standard library", "why_tests_cant": "ranges over all sections and addresses; debug and release builds differ", "anchors": ["crates/sframe/src/read.rs: SFrame::fde_for_address, FuncDescEntry::contains, FuncDescEntry::get_fre_for_address"]}
{"id": "C126", "title": "sframedump: what it lists and how it ends does not depend on stderr", "statement": "What sframedump writes to stdout, and its exit code, do not depend on whether stderr takes its messages.", "quantifier": "every input, every pair of streams, which may refuse what is printed at any time", "why_tests_cant": "ranges over all ways in which streams can fail", "anchors": ["crates/sframedump/src/main.rs: main, dump"]}
{"id": "C127", "title": "dwarfdump: a success is complete, or a message was delivered", "statement": "If dwarfdump ends with exit code 0, then it met no error and stdout has taken everything it prints, or stderr has taken a message that names the file and says that the dump failed. What stdout has taken does not depend on stderr; the exit code does exactly if there is such a message and it is refused.", "quantifier": "every input, every pair of streams, which may refuse what is printed at any time", "why_tests_cant": "ranges over all ways in which streams can fail", "anchors": ["crates/dwarf2sframe/src/bin/dwarfdump.rs: main, dump_file"]}
{"id": "C128", "title": "bpfunwind: add", "statement": "add returns the sum of its arguments if it is a usize; otherwise it panics in builds with overflow checks and returns the sum less 2^64 in others.", "quantifier": "all arguments, both profiles", "why_tests_cant": "2^128 pairs of arguments", "anchors": ["crates/bpfunwind/src/lib.rs: add"]}
{"id": "C129", "title": "Converters: what the exit code says on any streams", "statement": "Whatever stdout and stderr take, a converter ends, with exit code 0, 1 or 101. It is 0 exactly if the whole object with the section it made was written, and then everything that is printed was taken. Otherwise nothing was written, or writing the object failed. What is written is what is written if everything can be printed, or nothing.", "quantifier": "every file system and all arguments, both converters, every pattern of prints that fail, both profiles", "why_tests_cant": "Streams that fail at any one of arbitrarily many prints, and the absence of any write after that, cannot be sampled.", "anchors": ["crates/dwarf2sframe2/src/main.rs:30-114", "crates/dwarf2sframe/src/main.rs:30-350"]}
{"id": "C130", "title": "Reader: bytes that mean nothing do not matter", "statement": "Two sections of the same length that differ only in the gaps between their parts, after the last part, in the padding of their functions and in the top three bits of the info bytes of their functions are refused with the same error, or both are loaded. In that case every method of the section, of its functions and of their rows returns the same for both, at every address; so do the dump and Debug.", "quantifier": "every pair of byte strings, both byte orders, versions and profiles, both binary searches, every address", "why_tests_cant": "Pairs of unbounded byte strings, compared in everything a caller can ask of them.", "anchors": ["crates/sframe/src/read.rs:26-214, 340-822", "crates/sframe/src/raw/v2.rs:105-154, 70-102", "crates/sframedump/src/main.rs:68-156"]}
{"id": "C131", "title": "Code that is moved unwinds as before", "statement": "Take the call frame information of some code, and that of the same code at another place that SFrame can express. With either converter: if conversion and build of the first give a section, then so do those of the second, and it is of the same length. At every moved address fde_for_address followed by get_fre_for_address gives with the second section the rules, the error, the panic or nothing that it gives with the first at the address. The same holds of builders with moved functions, whether they can be built or not, and of any two sections with moved functions.", "quantifier": "every input, every distance in either direction, every address, both byte orders, profiles and binary searches", "why_tests_cant": "All distances times all addresses times all inputs.", "anchors": ["crates/sframe/src/read.rs:173-214, 380-450", "crates/sframe/src/write.rs:160-330", "crates/dwarf2sframe2/src/lib.rs:203-314", "crates/dwarf2sframe/src/main.rs:30-350"]}
{"id": "C132", "title": "sframedump: the listing of moved code", "statement": "The listing of a section whose functions are those of another one, moved, is the listing of the other one, line by line, with every address of a function or row moved by the same distance and nothing else changed; the runs end in the same way. So are the listings of the sections that either converter and the builder make of some code and of the same code at another place. Where addresses are computed with overflow checks this holds unless a function runs over the greatest address.", "quantifier": "every pair of sections with moved functions, every input of the converters, every distance in either direction, both profiles, both byte orders", "why_tests_cant": "ranges over all sections, inputs and distances; relates two runs", "anchors": ["crates/sframedump/src/main.rs:68-156", "crates/sframe/src/read.rs:618-629", "crates/dwarf2sframe2/src/lib.rs:203-314", "crates/dwarf2sframe/src/main.rs:30-350"]}
{"id": "C133", "title": "What is read of a function does not depend on the others", "statement": "Take two sections that have been built and have a function in common, whatever else is in them and whatever their byte orders. Every accessor of the function, its rows read in order, the bounds of their iterator, contains and get_fre_for_address return in both sections the same, at every address. So it is for sections made by either converter from two inputs that have a function in common which no later one replaces.", "quantifier": "every pair of builders or inputs with a common function, all byte orders, both profiles, every address", "why_tests_cant": "ranges over all pairs of sections; what else is in a section is unbounded", "anchors": ["crates/sframe/src/write.rs:160-341", "crates/sframe/src/read.rs:340-450", "crates/dwarf2sframe2/src/lib.rs:142-314", "crates/dwarf2sframe/src/main.rs:30-350"]}
{"id": "C134", "title": "Converter: the warnings for moved code", "statement": "If a conversion succeeds and all functions are moved by the same distance, to addresses that SFrame can express, then the conversion of the moved code prints as many lines of warnings, in the same order, and each differs from its counterpart in the address of the function only, which is that of the moved function; the offset of the row and the reason stay. With the debug dump off nothing is printed on stdout in either case.", "quantifier": "every input that can be converted, every distance in either direction, both architectures and profiles, all options", "why_tests_cant": "ranges over all inputs and distances; relates two runs", "anchors": ["crates/dwarf2sframe2/src/lib.rs:224-314, 330-463"]}
{"id": "C135", "title": "Both converters: the report on moved code", "statement": "If a conversion succeeds and all functions are moved by the same distance, to addresses that SFrame can express, then what is printed of the moved code, line by line, is what is printed of the code, with the addresses of the functions and rows moved in the lines that show them and nothing else changed. The lines with addresses are, in this order, for each function of the input its start, its length and end, and for each row its start and end. This is so of the debug dump of the converter, and of all that the loop of the legacy converter prints on stdout and stderr.", "quantifier": "every input that can be converted, every distance in either direction, all architectures and profiles, all names and texts of the DWARF library", "why_tests_cant": "ranges over all inputs and distances; relates two runs", "anchors": ["crates/dwarf2sframe2/src/lib.rs:203-267", "crates/dwarf2sframe/src/main.rs:110-313"]}
{"id": "C136", "title": "Both converters: moved code is refused as before", "statement": "Move all functions by the same distance, from addresses that SFrame can express to others, without an address of a row that wraps around. The conversion of the moved code succeeds exactly if that of the code does, panics exactly if it does, and reports an error exactly if it does: the same error, in which the address, if it names one, is moved and the offset of the row or the length of the function is not. The conversion by the legacy tool ends in the same way as before, with the same error or the same panic if it fails.", "quantifier": "every input, every distance in either direction, both architectures and profiles, all options", "why_tests_cant": "ranges over all inputs and distances; relates two runs", "anchors": ["crates/dwarf2sframe2/src/lib.rs:142-314", "crates/dwarf2sframe/src/main.rs:86-316"]}
{"id": "C137", "title": "Both converters: entries are converted each by itself", "statement": "A section is converted exactly if each of its entries is converted when it is the only one, with the same CIEs. The conversion reports an error, or panics, exactly if the first entry that is not converted when alone is reported with this error, or panics. No entry makes another one fail, or saves it from failing. What either converter prints for a section that is converted, dump and warnings, is what it prints for the entries, each alone, in their order.", "quantifier": "every input, both architectures and profiles, all options, both converters", "why_tests_cant": "ranges over all inputs; relates the run on a section to those on its entries", "anchors": ["crates/dwarf2sframe2/src/lib.rs:142-314, 330-463", "crates/dwarf2sframe/src/main.rs:86-316"]}
{"id": "C138", "title": "Both converters: the run on a section is made of those on its entries", "statement": "What the conversion of a section prints, on stdout and stderr in their common order, and how it ends, with which error or which panic, is what the conversions of its entries, each alone with the same CIEs, print one after the other, up to and including the first that does not succeed, and how that one ends.", "quantifier": "every input, whether it is converted or not, both architectures and profiles, all options and texts of the DWARF library, both converters", "why_tests_cant": "ranges over all inputs; relates the run on a section to those on its entries", "anchors": ["crates/dwarf2sframe2/src/lib.rs:142-314, 330-463", "crates/dwarf2sframe/src/main.rs:86-316"]}
{"id": "C139", "title": "dwarfdump: the dump of a section is made of those of its entries", "statement": "After its title, the dump of a section consists of the dumps of its entries, each alone with the same CIEs, one after the other, up to and including the first that does not come to its end; and it ends as that one does, with the same error or panic, or with success if there is none. The cache of CIEs and the entries before have no influence.", "quantifier": "every section, whether it is dumped to the end or not, all architectures, both profiles, all texts of the DWARF library", "why_tests_cant": "ranges over all sections; relates the run on a section to those on its entries", "anchors": ["crates/dwarf2sframe/src/bin/dwarfdump.rs:118-261"]}
{"id": "C140", "title": "dwarfdump: the dump of moved code", "statement": "If the initial addresses of all FDEs of a section are moved by the same distance, with their instructions as they were (also the operand of a DW_CFA_set_loc), the dump of each entry is the one it had, and ends as it did, but for two lines of an FDE: its fifth line shows the start of the function at its new place and its sixth line the same length and the end at the new place. The dump of the section is made of these. In debug builds this needs the end of each function not to wrap around, before and after the move.", "quantifier": "every section, whether it is dumped to the end or not, every distance in either direction, all architectures, both profiles", "why_tests_cant": "ranges over all sections and distances; relates two runs", "anchors": ["crates/dwarf2sframe/src/bin/dwarfdump.rs:118-261"]}
{"id": "C141", "title": "Both converters and dwarfdump: appended entries only continue the run", "statement": "Let the entries of a section be those of a first list followed by those of a second. If the run on the first alone succeeds, the run on both prints what the run on the first prints and then what the run on the second prints, and ends as that one does, with the same error or panic. If the run on the first does not succeed, the run on both is the same run. So appended entries never change what is printed before.", "quantifier": "every two lists of entries, with the same CIEs, whether they are converted or not, all architectures, both profiles, all options and texts of the DWARF library", "why_tests_cant": "ranges over all pairs of lists of entries; relates three runs", "anchors": ["crates/dwarf2sframe2/src/lib.rs:142-314, 330-463", "crates/dwarf2sframe/src/main.rs:86-316", "crates/dwarf2sframe/src/bin/dwarfdump.rs:118-261"]}
{"id": "C142", "title": "Both converters: repeated entries change nothing", "statement": "If entries are put in front of a section that are all among its entries already, in any order and number, the conversion succeeds exactly if it did, and the result is the same.", "quantifier": "every section and every list of its entries, with the same CIEs, all architectures, both profiles, all options, both converters", "why_tests_cant": "ranges over all sections and lists of repetitions; relates two runs", "anchors": ["crates/dwarf2sframe2/src/lib.rs:142-314", "crates/dwarf2sframe/src/main.rs:86-316", "crates/sframe/src/write.rs:89-93"]}
