#!/usr/bin/env python3
"""Writes /verif/properties.jsonl.  Edit PROPS, re-run."""
import json, os
R = "crates/sframe/src/read.rs"; W = "crates/sframe/src/write.rs"
V2 = "crates/sframe/src/raw/v2.rs"; V1 = "crates/sframe/src/raw/v1.rs"; RAW = "crates/sframe/src/raw/mod.rs"
L = "crates/dwarf2sframe2/src/lib.rs"; M2 = "crates/dwarf2sframe2/src/main.rs"
M1 = "crates/dwarf2sframe/src/main.rs"; SD = "crates/sframedump/src/main.rs"
P = []
def p(title, statement, quantifier, why, anchors):
    P.append(dict(id="C%02d" % (len(P)+1), title=title, statement=statement, quantifier=quantifier,
                  why_tests_cant=why, anchors=anchors))

# ---------------------------------------------------------------- reading a section
p("Loading a section is total",
  "`SFrame::load` never panics, for any byte string and either byte order; its result is a section, or exactly one of UnexpectedEof, IncorrectEndian, UnsupportedVersion.",
  "every byte string, both byte orders", "the input space is all byte strings; header fields (offsets, counts, lengths) are attacker-controlled 32-bit values",
  [R+": SFrame::load"])
p("Load decodes the documented layout",
  "`SFrame::load` succeeds exactly when the magic matches in the chosen byte order, the version is 1 or 2, and the 28-byte header, the auxiliary header, the FDE table and the FRE sub-section all lie inside the input; then every accessor returns the integer stored at the documented byte position, and the FDE table and FRE bytes are those at the documented offsets. When it fails, which error is returned is determined by the first failed condition.",
  "every byte string, both byte orders", "a test compares a few literal sections; the iff quantifies over all truncations and all field values",
  [R+": SFrame::load", V2+": Header", V1+": FuncDescEntry", RAW+": Preamble"])
p("Trailing bytes are ignored",
  "If loading a byte string succeeds, loading it with any bytes appended succeeds too and gives the same section.",
  "every byte string that loads and every suffix", "two unbounded byte strings", [R+": SFrame::load"])
p("A section in the other byte order is refused",
  "Whatever `build` emits for one byte order, `load` with the other byte order returns IncorrectEndian.",
  "every builder that builds, both byte orders", "ranges over every builder", [R+": SFrame::load", W+": SFrameBuilder::build", RAW+": MAGIC"])
p("Version 1 and version 2 function types are kept apart",
  "A loaded version-2 section never yields an FDE of type PcMaskV1 and always gives a repetition block size; a version-1 section never yields PcMask and never gives a repetition block size.",
  "every loaded section and every FDE in it", "ranges over every section", [R+": Fde::fdetype, Fde::rep_size"])
p("fdes() enumerates the whole table in order, exactly once",
  "Iterating `fdes()` with `next` yields exactly `num_fdes()` entries, in table order, each with the bytes of the FRE sub-section from its own start offset (empty if the offset is out of range); the reported length is exact at every point and the iterator stays exhausted.",
  "every loaded section, every prefix of the iteration", "unbounded table length", [R+": SFrame::fdes, FuncDescIter::next, size_hint"])
p("Skipping in fdes() agrees with stepping",
  "`fdes().nth(n)` returns the same entry (same header and same FREs) as calling `next` n+1 times.",
  "every loaded section and every n", "depends on offset stored in each entry; only fails for entries whose FREs are not at offset 0", [R+": FuncDescIter::nth"])
p("Backward iteration agrees with forward iteration",
  "Iterating `fdes()` with `next_back` yields the reverse of what `next` yields (same headers, same FREs).",
  "every loaded section", "same", [R+": FuncDescIter::next_back"])
p("FRE iteration is bounded, terminates and is fused",
  "Iterating the FREs of any FDE stops after at most its FRE count; the first error is the last item; after the end `next` keeps returning None.",
  "every FDE header, every FRE byte string, every number of `next` calls", "counts up to 2^32-1 and every malformed input", [R+": FrameRowIter::next"])
p("FRE iterator size hints are sound",
  "At every point of the iteration the lower bound of `size_hint` is at most, and the upper bound is at least, the number of items still to come.",
  "every FDE, every FRE byte string, every point of iteration", "must hold at every state", [R+": FrameRowIter::size_hint"])
p("Reading FREs of untrusted input never panics",
  "Iterating the FREs of any FDE of any loaded section returns rows or errors and never panics.",
  "every byte string", "depends on malformed inputs", [R+": FrameRowEntry::load"])
p("An FRE decodes to the documented layout",
  "A successfully read FRE has: the start offset stored in 1, 2 or 4 bytes as the FDE's FRE type says; the flags of the info byte; and as many sign-extended offsets of 1, 2 or 4 bytes as the info byte says; the remaining input is exactly what follows. Reading fails with UnsupportedFreType, InvalidFreOffsetCount, UnsupportedFreOffset or UnexpectedEof exactly in the corresponding cases.",
  "every FDE info byte, every byte string, both byte orders", "all info bytes x all lengths x all contents", [R+": FrameRowEntry::load", V2+": FreInfo, FdeInfo"])
p("contains() is the half-open address range",
  "`contains(a)` is true exactly when start <= a < start+size as integers (no wrap-around); a debug build panics instead exactly when a - start exceeds i32::MAX.",
  "every FDE, every address, both build profiles", "2^96 combinations incl. overflow corners", [R+": FuncDescEntry::contains"])
p("An FDE found for an address contains it",
  "If `fde_for_address(a)` returns an FDE, that FDE is in the table and its range contains a, whether or not the section is flagged sorted and whether or not it really is.",
  "every loaded section, every address", "holds for arbitrary unsorted tables", [R+": SFrame::fde_for_address"])
p("Lookup in an unsorted section finds the first match",
  "In a section without the sorted flag, `fde_for_address(a)` returns exactly the first FDE of `fdes()` whose range contains a, and None iff there is none. A build with overflow checks panics instead exactly if it first comes to an FDE that a lies more than i32::MAX behind.",
  "every loaded section without FDE_SORTED, every address", "unbounded tables", [R+": SFrame::fde_for_address"])
p("Lookup in a sorted section finds the covering function",
  "In a section with the sorted flag whose FDEs are sorted and disjoint, `fde_for_address(a)` returns Some whenever some FDE contains a.",
  "every sorted section, every address", "binary search correctness over every length and target position", [R+": SFrame::fde_for_address"])
p("A looked-up FDE is the one fdes() shows",
  "The entry `fde_for_address` returns has the same rows as the corresponding entry of `fdes()`.",
  "every loaded section, every address", "only entries at offset 0 behave", [R+": SFrame::fde_for_address, FuncDescIter::nth"])
p("FRE lookup outside the function returns None",
  "`get_fre_for_address(a)` returns None for every address outside [start, start+size).",
  "every FDE, every FRE bytes, every address", "boundary of every function", [R+": FuncDescEntry::get_fre_for_address"])
p("FRE lookup returns the row in force at the address",
  "For a PcInc function `get_fre_for_address(a)` returns the last row whose start offset is <= a - start, i.e. the row that governs a.",
  "every well-formed FDE, every address in it", "needs every row layout and every address", [R+": FuncDescEntry::get_fre_for_address"])
p("PcMask lookups are periodic",
  "For a PcMask FDE the looked-up row depends only on (a - start) mod rep_block_size; a repetition block of size 0 gives InvalidFdeRepBlockSize for every address in range.",
  "every PcMask FDE, all address pairs (in a build with overflow checks, those at most i32::MAX behind its start)", "relation between two unbounded lookups", [R+": FuncDescEntry::get_fre_for_address"])
p("Offset accessors honour section-wide fixed offsets",
  "`ra_offset`/`fp_offset` return the header's fixed offset when it is non-zero; otherwise RA is the second stored offset, FP the one after CFA and (stored) RA; `cfa_offset` is the first stored offset; each returns MissingFreOffset exactly when the row stores too few offsets.",
  "every row, every header", "all combinations of fixed offsets and counts", [R+": FrameRowEntry::cfa_offset, ra_offset, fp_offset"])
p("FRE absolute start address",
  "`start_address()` of an FRE is the FDE start plus the row offset; a debug build panics exactly when that sum exceeds i32::MAX and a release build wraps.",
  "every FDE start, every row offset, both profiles", "overflow corners", [R+": FrameRowEntry::start_address"])
# ---------------------------------------------------------------- raw bit fields
p("Info-byte fields are independent",
  "For FRE info and FDE info bytes, each setter makes its getter return the value set and changes no other field, for every prior byte value; an offset count over 15 panics.",
  "every byte value, every field value", "all 256 prior states x all values", [V2+": FreInfo, FdeInfo"])
# ---------------------------------------------------------------- writing
p("Row admission is exactly the documented rule",
  "`FuncDescBuilder::row` accepts a row iff its start is < 0x10000000, below the repetition size if any, below the function size, its RA/FP offsets are absent or equal to the section-wide fixed offset when there is one, and no row has that start; the error names the first violated rule; a refused row leaves the builder unchanged; an accepted row adds exactly that row with redundant fixed offsets dropped.",
  "every builder state, every row", "full decision table over unbounded state", [W+": FuncDescBuilder::row"])
p("Required offsets are enforced",
  "A row without an RA offset (no fixed RA) or without FP offset (no fixed FP) is rejected with MissingRaOffset/MissingFpOffset, as the field documentation demands.",
  "every builder, every row", "universal over rows", [W+": FuncDescBuilder::row, FrameRowOffsets, FrameRowError"])
p("Overlapping functions are rejected, and only those",
  "`build` returns OverlappingFdes exactly when two distinct functions of the builder have a.start <= b.start < a.start + a.size as integers (adjacent comparison suffices; addresses across zero included).",
  "every builder reachable through the API", "pairs of functions anywhere in an unbounded table, incl. 32-bit wrap", [W+": SFrameBuilder::build, Pairs"])
p("build is total on API-reachable builders",
  "For any builder made by any sequence of API calls, `build` never panics in a release build; in a debug build it panics only if two neighbouring functions start more than i32::MAX apart.",
  "every API call sequence, both profiles", "needs the invariant over all histories", [W+": SFrameBuilder::build"])
p("build emits the documented layout",
  "A successful `build` emits header (magic, version 2, flags, abi, fixed offsets, aux length 0, counts, lengths, offsets), then the FDE table sorted by start address, then the rows; each FDE's start offset points at its own rows; total length is 28 + 20*FDEs + FRE bytes.",
  "every API-reachable builder", "unbounded tables", [W+": SFrameBuilder::build", V2+": Header, FuncDescEntry"])
p("SectionTooLarge exactly when unrepresentable",
  "`build` returns SectionTooLarge exactly when (no overlap and) the number of functions times 20, the number of rows, or the FRE byte length exceeds u32::MAX.",
  "every API-reachable builder", "would need >4 GiB inputs to test", [W+": SFrameBuilder::build"])
p("Header and FDE round trip",
  "Loading what `build` emitted with the same byte order succeeds and gives the same flags, ABI, fixed offsets, function and row counts, and for each function, in address order, the same start, size, type, repetition size, pauth key and number of rows.",
  "every API-reachable builder, both byte orders", "unbounded builders", [W+": SFrameBuilder::build", R+": SFrame::load"])
p("Row round trip",
  "Reading back a built section yields for each function exactly the rows added to it, in start order, with the same start offset, base register, mangled flag, and CFA/RA/FP offsets.",
  "every API-reachable builder, both byte orders", "every offset value and every mix of widths", [W+": SFrameBuilder::build, FrameRowOffsets::offset_type", R+": FrameRowEntry::load"])
p("Offset width always fits",
  "The offset width chosen for a row represents each of its offsets without truncation.",
  "every triple of 32-bit offsets", "2^96 triples; fails only on a measure-zero tie", [W+": FrameRowOffsets::offset_type"])
p("Start-offset width always fits",
  "The FRE start-offset width chosen for a function represents every row start without truncation.",
  "every API-reachable function", "boundaries 0x7f/0x7fff over unbounded row sets", [W+": SFrameBuilder::build"])
p("build is independent of insertion order",
  "Adding the same functions (distinct starts) in any order, or rows in any order, gives byte-identical output.",
  "all permutations", "factorially many orders", [W+": SFrameBuilder::fde, FuncDescBuilder::row, build"])
p("Re-adding a function replaces it",
  "Adding a function whose start address is already present replaces the old one and leaves all others untouched; adding a function made with different options panics and nothing else does.",
  "every builder, every function", "all histories", [W+": SFrameBuilder::fde"])
p("The sorted flag is truthful",
  "Every section the writer emits has FDE_SORTED set and its FDEs are strictly increasing in start address, and non-overlapping.",
  "every API-reachable builder", "all histories", [W+": SFrameOptions, SFrameBuilder::build"])
p("Options setters",
  "A fixed offset of 0 is the same as None; `frame_pointer` changes only its flag bit; setters commute on different fields; the sorted flag cannot be cleared.",
  "every option value and setter sequence", "all sequences", [W+": SFrameOptions"])
p("merge_adjacent_fres preserves unwinding",
  "After `merge_adjacent_fres` the row governing every offset (last row starting at or before it) has the same base register, mangled flag and CFA/RA/FP offsets as before, and exists iff it did.",
  "every builder, every offset", "every row sequence, every offset", [W+": FuncDescBuilder::merge_adjacent_fres"])
p("merge_adjacent_fres is complete and idempotent",
  "It terminates, only removes rows, never the first, leaves no two neighbouring rows that differ only in start, and a second call changes nothing.",
  "every builder", "unbounded loop", [W+": FuncDescBuilder::merge_adjacent_fres"])
p("merge_adjacent_fdes terminates and preserves unwinding",
  "`merge_adjacent_fdes` terminates and for every address the governing row found after merging equals the one before.",
  "every API-reachable builder, every address, both profiles", "loop over mutable map; wrap-around corner cases", [W+": SFrameBuilder::merge_adjacent_fdes"])
p("merge_adjacent_fdes merges adjacent identical functions",
  "Two adjacent functions of equal size (<=255), equal key and equal rows are merged into one PcMask function.",
  "every builder", "universal", [W+": SFrameBuilder::merge_adjacent_fdes"])
p("Debug and release builds agree",
  "Whenever a debug build does not panic, a release build returns the same result (all reader lookups, the writer and the converter).",
  "every input, every operation", "two-run relation over all inputs", [R, W, L])
# ---------------------------------------------------------------- converter
p("Converter: ABI and fixed RA selection",
  "The ABI written is the one for (architecture, explicit endian or else the section's endian), INVALID for big-endian amd64; fixed RA is -8 exactly for little-endian amd64; FP is never fixed; flags are just FDE_SORTED.",
  "every options value and input", "must hold for every conversion result", [L+": dwarf2sframe"])
p("Converter: unrepresentable functions are reported",
  "The first function (in section order) with start > i32::MAX gives InvalidStartAddress, with length > i32::MAX gives InvalidFunctionLength, parse errors give their own variants; no partial result is returned.",
  "every entry sequence", "first-error order over unbounded streams", [L+": Dwarf2SFrame::convert"])
p("Converter: each row is translated faithfully or marked invalid",
  "A DWARF row becomes an SFrame row with the same start, base register and CFA/FP/RA offsets when its CFA is sp/fp+i32, FP is saved at an i32 offset, unchanged or undefined, and RA is saved at an i32 offset; any other row becomes an explicit invalid row at the same start; it never becomes a row with different rules.",
  "every row and architecture", "all register rules x all 64-bit offsets", [L+": Dwarf2SFrame::convert_row"])
p("Converter: output unwinds like the input",
  "For every function converted and every address inside it the governing row of the produced function is the translation of the DWARF row covering that address (with merging on or off).",
  "every well-formed DWARF input, every address", "end-to-end over unbounded inputs", [L+": dwarf2sframe, convert, convert_row"])
p("Converter never panics",
  "`dwarf2sframe` returns Ok or Err and never panics.",
  "every DWARF input, every option", "malformed or unusual input", [L+": Dwarf2SFrame::convert"])
p("Converter: zero-width rows have no effect",
  "Removing all zero-width rows from the input does not change the result.",
  "every DWARF input", "relation between two runs", [L+": Dwarf2SFrame::convert"])
p("Converter: diagnostics do not change the result",
  "Switching `warnings` (or `debugdump`) on or off does not change the produced builder or the error.",
  "every input, both settings", "two-run relation", [L+": Dwarf2SFrame::warn, convert"])
p("Converter: CIE cache is transparent",
  "Caching parsed CIEs by offset gives the same result as parsing the CIE anew for each FDE.",
  "every entry sequence", "history-dependent state", [L+": Dwarf2SFrame::convert"])
p("Converter: duplicate starts keep the last",
  "When several input functions share a start address, the result holds the conversion of the last one and one function per distinct start.",
  "every input", "unbounded streams", [L+": convert", W+": SFrameBuilder::fde"])
p("Converter output survives the file format",
  "Building and loading what the converter produced gives back, for every function and row, the converted rules (no value is truncated or shifted to another register).",
  "every conversion result", "end-to-end over unbounded inputs", [L, W, R])
p("CLI: base addresses",
  "The command-line converter passes to the DWARF parser the address of .eh_frame, .eh_frame_hdr, .text and .got as the respective bases.",
  "every object file", "depends on which sections exist", [M2+": main"])
p("CLI: output object",
  "On success the output object has the input's architecture and byte order and one .sframe section whose content is the built section in the file's byte order; every failure happens before the output file is written.",
  "every object file and every failure point", "all failure points", [M2+": main"])
p("sframedump lists every function and row",
  "The dump prints one function header per FDE in order and one line per readable row; a row that fails to decode ends only that function's listing.",
  "every loaded section", "unbounded sections", [SD+": dump"])
p("Legacy converter: same rows, or an error",
  "The legacy `dwarf2sframe` tool never emits a row with different rules than the DWARF row it came from, and converts whatever the newer tool converts.",
  "every DWARF input", "relation between tools", [M1+": main"])
p("Legacy converter: declared ABI matches the input",
  "The section the legacy tool emits declares the architecture of the input file and is written in that file's byte order.",
  "every object file", "depends on host and file", [M1+": main"])
p("Converter: merging options",
  "The merging options change neither which error is reported nor whether the converter panics; merging of functions leaves the result as it is; merging of rows acts as `merge_adjacent_fres` on each function of the unmerged result.",
  "every input, all settings", "relation between runs", [L+": dwarf2sframe, Dwarf2SFrame::convert", W+": merge_adjacent_fres, merge_adjacent_fdes"])
p("Converter: warnings are complete and precise",
  "With warnings on, a successful conversion reports exactly one warning per row of nonzero width that SFrame cannot express, in input order, naming function, offset and the first reason; with warnings off it reports none.",
  "every input", "unbounded streams", [L+": Dwarf2SFrame::warn, convert_row"])
p("Dumper: byte order of the input",
  "sframedump prints the section of every object file that contains a valid .sframe section in the byte order of the object file.",
  "every object file, both host byte orders", "needs objects and hosts of both byte orders", [SD+": main"])
p("Dumper: the text is unambiguous",
  "The text sframedump prints on stdout determines the header, functions and rows it describes: two listings have the same text exactly if they consist of the same lines, up to the base register of a row with unknown CFA (printed as u) and the decoding errors (which go to stderr).",
  "every pair of listings", "ranges over all pairs of listings of any length", [SD+": dump"])
p("Dumper: a built section is listed as built",
  "The dump of a built section panics exactly if some row starts outside its function or, in debug builds, at an address above i32::MAX. Otherwise it lists the header and, in order of start, every function with one line per row; the line of each row shows the builder's values for every function whose rows can be stored at all (C31), and what is read of the row for the others.",
  "every builder reachable through the API, both byte orders, both profiles", "composes builder, writer, reader and dumper over unbounded inputs", [W+": SFrameBuilder::build", SD+": dump"])
p("End to end: from DWARF to the listing",
  "If dwarf2sframe2 succeeds on a file then sframedump, run on the object it wrote on a host of the same byte order, lists every DWARF function (the last one of those with the same start), and at every address that a row of the function covers, the line in force shows the DWARF rules of that row or `u` if SFrame cannot express them; provided the DWARF rows are in order (in rows with a width tie, C31, the offsets of the largest magnitude are shown as negative numbers) and, for debug builds of sframedump, do not start above i32::MAX. Assumes that the object crate reads back the sections it emits.",
  "every input file and environment", "composes two tools over unbounded inputs", [M2+": main", SD+": main"])
p("Row lookup: all function types",
  "get_fre_for_address returns the first row that applies by the documented condition of the function's type (PC >= START, PC % REP >= START, PC & START >= START); an earlier row that cannot be decoded is reported as its error, an earlier row that starts outside the function panics, and a PcMask function with repetition size 0 is reported as InvalidFdeRepBlockSize.",
  "every function entry, all offsets (in a build with overflow checks, those up to i32::MAX)", "ranges over all row tables and offsets", [R+": FuncDescEntry::get_fre_for_address, FdeType"])
p("Builder: different sections, different bytes",
  "Two builders that are built to the same bytes are equal.",
  "every pair of builders reachable through the API", "ranges over pairs of unbounded builders", [W+": SFrameBuilder::build"])
p("Merging rows never makes a section larger",
  "If a section can be built then it can be built after merge_adjacent_fres was called on its functions, and is not larger; likewise the output of the converter with merge_fres.",
  "every reachable builder, every DWARF input", "relation between runs on unbounded inputs", [W+": FuncDescBuilder::merge_adjacent_fres, SFrameBuilder::build", L+": dwarf2sframe"])
p("Debug output of a section",
  "Printing a section with `{:?}` panics exactly if some row of some function starts at or after the end of its function and no row of the function before it is undecodable; otherwise it shows the header fields and, in order, of every function the values its accessors give and its rows up to and including the first undecodable one.",
  "every section", "unbounded sections", [R+": Debug for SFrame, FuncDescEntry, FrameRowEntry"])
p("Converter: signed return addresses",
  "A row for which DWARF says that the return address is signed (RA_SIGN_STATE = 1 on AArch64) is converted to a row with mangled_ra_p set, and a row for which it is not signed to one without.",
  "every successful conversion, every address", "ranges over all DWARF inputs", [L+": convert_row", W+": FrameRowBuilder::mangled_ra_p"])
p("End to end: walking the stack",
  "Walking a stack with a converted, written and loaded section (rules looked up by exhaustive search) visits the same frames, with the same program counter, stack pointer and, where the SFrame walk knows it, frame pointer as walking it with the DWARF rules, for walks of any length through rows that SFrame can express.",
  "every conversion, every memory content, every walk", "ranges over all inputs, stacks and walk lengths", [L+": dwarf2sframe, convert_row", W+": SFrameBuilder::build", R+": FrameRowEntry::cfa_offset, ra_offset, fp_offset"])
p("End to end: the reader's own lookups",
  "In a converted, written and loaded section, fde_for_address followed by get_fre_for_address gives at every address covered by a DWARF row the rules of that row.",
  "every conversion, every address", "ranges over all inputs and addresses", [L+": dwarf2sframe", R+": SFrame::fde_for_address, FuncDescEntry::get_fre_for_address"])
p("Errors of the sframe crate: the text is unambiguous",
  "Two errors of the reader with the same text are equal; likewise two errors of adding a row, and two errors of building a section.",
  "every pair of errors", "ranges over all pairs of error values", ["crates/sframe/src/error.rs: Display for Error", W+": FrameRowError, EmitError"])
p("Errors of the converter: the text is unambiguous",
  "The text of an error of the converter determines the kind of error and the function or row it is about.",
  "every pair of errors", "ranges over all pairs of error values", ["crates/dwarf2sframe2/src/error.rs: Display for Error"])
p("Errors name the limit that was exceeded",
  "The limits that the texts of errors state are those at which the code refuses the input, and the reason that they state is the reason for which it was refused.",
  "every refused input", "ranges over all inputs at and around the limits", ["crates/dwarf2sframe2/src/error.rs: Display for Error", "crates/sframe/src/error.rs", L+": convert", W+": FuncDescBuilder::row"])
p("Which errors the reader can report",
  "Loading a section reports exactly the header errors, iterating over rows exactly the errors of decoding a row, the offset accessors only MissingFreOffset, and row lookup only an error of decoding a row or InvalidFdeRepBlockSize.",
  "every byte string, every iterator, every row", "ranges over all inputs", [R+": SFrame::load, FrameRowIter::next, FrameRowEntry, get_fre_for_address"])
p("Warnings of the converter: the text is unambiguous",
  "The line that the converter prints for a warning determines the function, the row and the reason, provided gimli's names of registers are distinct and look like names.",
  "every pair of warnings", "ranges over all pairs of warnings", [L+": Dwarf2SFrame::warn, convert_row", "crates/dwarf2sframe2/src/display.rs"])
p("FDE iterator: any mixture of calls",
  "Any sequence of calls of next, nth and next_back on fdes() gives the functions of the table at the positions that a double-ended iterator would give: no position twice, the remaining length exact after every call. The entries from next have their own rows, those from nth and next_back the row area of the whole section (C07, C08).",
  "every loadable section, every sequence of calls", "ranges over all sequences of calls", [R+": Iterator, DoubleEndedIterator, ExactSizeIterator for FuncDescIter"])
p("Reader: work is bounded by the input",
  "A section of n bytes has at most n/17 functions, and iterating over the rows of one of them yields at most n/2 items, whatever counts the header and the FDEs announce.",
  "every byte string", "ranges over all hostile headers", [R+": SFrame::load, FuncDescIter, FreIter"])
p("Reader: rows are local",
  "The rows of a function depend only on its FDE and on the bytes of these rows: functions of different sections with equal FDEs and the same bytes at the place they point at have the same rows, whatever else the sections contain.",
  "every pair of sections", "relation between two runs", [R+": FuncDescEntry::iter, FreIter::next, FrameRowEntry::load"])
p("Builder and reader: byte order is transparent",
  "Building the same section in the two byte orders fails alike, or gives sections of the same length that read back as the same header, functions and rows, with the same offsets.",
  "every builder reachable through the API", "relation between two runs on unbounded inputs", [W+": SFrameBuilder::build", R+": SFrame::load"])
p("Converter: order of the input",
  "Whether the conversion succeeds does not depend on the order of the entries of .eh_frame nor on where CIEs stand; if it succeeds and no two functions have the same start, the result is the same too.",
  "every pair of .eh_frame sections with the same FDEs in any order", "relation between two runs on unbounded inputs", [L+": dwarf2sframe, convert"])
p("Converter: what of the input matters",
  "The result of the conversion, including errors, panics and warnings, depends only on the start and length of each function and, of each row, on its start, whether it is empty, the CFA rule (not on the expression in it) and the rules for the frame pointer and the return address; on the instructions only if debugdump is set.",
  "every pair of inputs that agree in these", "relation between two runs on unbounded inputs", [L+": convert, convert_row"])
p("Converter: moving the code",
  "If the addresses of all functions and rows are moved by the same distance, and the starts stay below 2^31, the conversion succeeds as before and the functions of the result are the same, moved by that distance.",
  "every successful conversion, every distance", "relation between two runs on unbounded inputs", [L+": convert, convert_row"])
p("Reader on 32-bit targets",
  "On a target with 32-bit usize, SFrame::load returns for every input what it returns on a 64-bit target, and in particular does not panic.",
  "every byte string shorter than 2^31, both profiles", "ranges over all hostile headers; tests run on 64-bit hosts", [R+": SFrame::load"])
p("Listing of call frame instructions: unambiguous",
  "The text that debugdump prints for the instructions of a CIE or FDE, together with its result, determines the instructions, including the operations of expressions, up to the first that cannot be decoded.",
  "every pair of lists of instructions", "ranges over all pairs of instruction lists", ["crates/dwarf2sframe2/src/dump.rs: dump_cfi_instructions, dump_expression", L+": convert"])
p("Listing of call frame instructions by the legacy tools: unambiguous",
  "The text that dwarfdump and the legacy converter print for a list of instructions, together with its result, determines the instructions, including the operations of expressions with their base types, up to the first that cannot be decoded.",
  "every pair of lists of instructions", "ranges over all pairs of instruction lists", ["crates/dwarf2sframe/src/bin/dwarfdump.rs: dump_cfi_instructions, dump_expression", "crates/dwarf2sframe/src/dump.rs: dump_cfi_instructions, dump_expression"])
DD = "crates/dwarf2sframe/src/bin/dwarfdump.rs"
p("dwarfdump: success means a complete dump",
  "If dwarfdump exits successfully then stdout describes every entry of .eh_frame, in order, with all its instructions.",
  "every file, every entry", "ranges over all sections and all places at which decoding can fail", [DD+": main, dump_eh_frame"])
p("dwarfdump does not panic",
  "dwarfdump does not panic, whatever its arguments and input.",
  "every command line, every file, both profiles", "ranges over all inputs", [DD+": main, dump_eh_frame"])
p("dwarfdump: base addresses",
  "The base addresses with which dwarfdump has pointers decoded are the addresses of the sections of the file, and what gimli would say with other bases, another address size or another vendor has no effect.",
  "every file", "ranges over all section tables; relation between two runs", [DD+": dump_eh_frame"])
p("dwarfdump: register names",
  "The names of registers in the dump are those of the architecture of the file.",
  "every file, every register", "ranges over all architectures and registers", [DD+": arch_register_name"])
p("dwarfdump: unambiguous",
  "The text of a dump, together with its result, determines the entries of the section with all their fields and instructions, up to the place at which the dump stops.",
  "every pair of sections of the same architecture", "ranges over all pairs of sections", [DD+": dump_eh_frame"])
p("Output of the converter",
  "With the debug dump on, stdout shows every function converted, in the order of the input, with its instructions and rows, and if the conversion fails or panics, what comes before the place of failure; stderr has exactly the warnings for the rows converted. Without debug dump and warnings nothing is printed.",
  "every section, all options, both profiles", "ranges over all sections and all places at which the conversion can stop", [L+": convert"])
p("Debug dump of the converter: unambiguous",
  "The text of the debug dump determines the functions of the section with their instructions and rows.",
  "every pair of sections of the same architecture", "ranges over all pairs of sections", [L+": convert", "crates/dwarf2sframe2/src/display.rs: RegisterRule", "crates/dwarf2sframe2/src/dump.rs: dump_cfi_instructions"])
p("Debug dump of the converter: sufficient",
  "Two sections of the same byte order for which the converter prints the same debug dump are converted to the same SFrame section with the same warnings.",
  "every pair of sections, all options", "relation between two runs over all pairs of sections", [L+": convert, convert_row"])
p("Output of the legacy converter",
  "The legacy converter shows on stdout the addresses of the sections and every function converted, in the order of the input, with its instructions, its rows and the offsets stored for each; on stderr, in their place among these, the reasons why a row is not expressed. If the conversion fails or panics, what is printed is that of everything before the place of failure.",
  "every file, both profiles", "ranges over all sections and all places at which the conversion can stop", [M1+": main", "crates/dwarf2sframe/src/fmthelp.rs: RegisterRule, dump_expression"])
p("Legacy converter: messages",
  "The legacy converter prints a message on stderr about exactly those rows whose rules SFrame cannot express; a run without messages has lost nothing.",
  "every section", "ranges over all rules", [M1+": main (row closure)"])
p("Legacy converter: register names",
  "The names of registers in the output of the legacy converter are those of the architecture of the file.",
  "every file, every register", "ranges over all architectures and registers", [M1+": main (register_name)", "crates/dwarf2sframe/src/fmthelp.rs: regname"])
p("Output of the legacy converter: unambiguous",
  "The text that the legacy converter prints on stdout determines the functions of the section with their instructions and rows.",
  "every pair of files of the same architecture that are converted", "ranges over all pairs of files; texts of several lines run into each other", [M1+": main", "crates/dwarf2sframe/src/fmthelp.rs: RegisterRule, dump_expression"])
p("Output of the legacy converter: sufficient",
  "Two files of the same architecture for which the legacy converter prints the same text on stdout are converted to the same SFrame section.",
  "every pair of files that are converted, on hosts of the same byte order", "relation between two runs over all pairs of files", [M1+": main"])
p("From instructions to rules",
  "At every address of a converted function, the section as written and read back gives the rules that the call frame instructions of the function establish there (DWARF 5, 6.4.3) if SFrame can express them, else none; at all other addresses it gives none.",
  "every section that is converted without a width tie (C31; there is none if nothing is saved above the CFA), all instructions, all addresses", "the standard's interpretation of instruction sequences against the whole pipeline, at every address", [L+": Dwarf2SFrame::convert", W+": SFrameBuilder::build", R+": SFrame::load"])

p("The two converters compared",
  "Given the same section, the converter for AMD64 and the legacy converter write sections that give the same rules at every address that a DWARF row covers, except exactly where the row can be expressed but for a rule for RBP other than undefined, same value or offset; there the first gives no rules and the legacy one says that RBP is unchanged. Outside the functions both give none.",
  "every section that both convert, rows in order, all addresses, both byte orders", "relation between two programs over all inputs, at every address", [L+": Dwarf2SFrame::convert", M1+": main", W+": SFrameBuilder::build"])
p("Walking the stack with a section of the legacy converter",
  "A walker that uses the section of the legacy converter sees the same program counters, stack pointers and frame pointers as a DWARF walker as long as it gets on; it stops at the first row that cannot be expressed.",
  "every section, every state of registers and memory, walks of any length", "ranges over all machine states and stacks", [M1+": main (row closure)", W+": SFrameBuilder::build"])

p("Which call frame instructions are converted",
  "A section is converted exactly if for every function start and length are below 2^31, no instruction goes to a location beyond the end of the function or, with addresses left, 2^28 bytes or more into it, and on little-endian AMD64 the return address is at CFA-8 at every address at which SFrame can express the rules (and the debug dump, if on, meets no undecodable expression).",
  "every section whose rows gimli gives without an error, all instructions, both profiles", "exact condition over all instruction sequences and addresses", [L+": Dwarf2SFrame::convert", W+": FuncDescBuilder::row"])

p("Legacy converter: from instructions to rules",
  "At every address of a function converted by the legacy converter, the section as written and read back gives the rules that the call frame instructions of the function establish there if SFrame can express them, else none; at all other addresses it gives none.",
  "every section that is converted without a width tie (C31), all instructions, all addresses", "the standard's interpretation of instruction sequences against the whole pipeline, at every address", [M1+": main (row closure)", W+": SFrameBuilder::build", R+": SFrame::load"])
p("Legacy converter: which call frame instructions are converted",
  "The legacy converter converts a section exactly if for every function start and length are below 2^31, every location that the instructions go to is after the one before, inside the function and less than 2^28 bytes into it, and all expressions that it prints can be decoded.",
  "every section whose rows gimli gives without an error, with at most one rule for a register, all instructions, both profiles", "exact condition over all instruction sequences and addresses", [M1+": main", W+": FuncDescBuilder::row"])

p("sframedump: a success means that the listing was written",
  "If sframedump reports success, stdout has taken the whole listing of the section.",
  "every input, every stdout, which may refuse bytes at any time", "ranges over all ways in which a stream can fail", [SD+": main, dump"])
p("dwarfdump: a silent success means that the dump was written",
  "If dwarfdump ends without a message on stderr and without a panic, stdout has taken everything it prints; what stdout has taken is always the start of that.",
  "every input, every stdout, which may refuse bytes at any time", "ranges over all ways in which a stream can fail", [DD+": main, dump_file"])
p("Converters: the result does not depend on the diagnostics",
  "The file that a converter writes, and whether it succeeds, does not depend on whether its diagnostics can be printed.",
  "every input, every pair of streams, which may fail at any print", "ranges over all ways in which a stream can fail", [L+": Dwarf2SFrame::convert", M1+": main", M2+": main", "crates/dwarf2sframe2/src/dump.rs"])

p("sframedump: arguments and exit code",
  "sframedump ends with code 0 exactly if help was asked for, which is then all it prints, or exactly one file was given, the file is readable, its .sframe section loads, and the whole listing was printed; it always ends, and ends with code 1 exactly if it reports an error, having printed nothing else. Without exactly one file nothing depends on the files there are.",
  "every list of arguments (whatever getopts makes of it), every file system, both profiles", "ranges over all arguments, files and sections", [SD+": main"])
p("The report of an error says what failed",
  "If a tool reports an error, the step it reports is the first one that failed; the first line of the report tells the steps apart, and names the file, section or architecture, or the kind of information, that the step is about; the report ends with the text of the error of the operating system, of another crate or of the sframe crate that made the step fail, if there was one. The exit code is 0 exactly if the tool succeeded, 1 exactly if it reports an error, 101 exactly if it panicked.",
  "every run of the two converters and of sframedump that ends with an error", "relation between two runs over all inputs and ways to fail", [SD+": main", M1+": main", M2+": main"])

p("Rewriting a built section reproduces it",
  "A program that loads a section built by the crate, and adds for every function read and every row read a function and row with what the accessors say, gets a builder that builds the same bytes, and gives the same result as the first builder in either byte order and profile. If a row starts behind the end of its function, reading panics instead.",
  "every builder whose rows and options are made by the public functions and which builds", "ranges over all builders; relates reader and writer", [R+": SFrame::load_bytes, FuncDescEntry, FrameRowEntry", W+": SFrameBuilder, FuncDescBuilder, FrameRowBuilder"])

p("The printed text of a section tells what is shown",
  "Two sections that are printed as the same text by {:?} or {:#?} were printed in the same one of the two layouts, have the same header, and have in the same places functions for which the accessors give the same values and rows that decode to the same values or the same error. {:?} gives a single line, {:#?} more than one; printing panics exactly if a row starts outside its function.",
  "every pair of sections, in any byte order; for every way in which the c_enum crate may show its two enumerations that tells the number and uses no character of the layout", "relation between two runs over all sections", [R+": Debug for SFrame, FuncDescEntry, FrameRowEntry", RAW+": Preamble, Flags", V2+": FdeType, FreType, FreOffset", "crates/sframe/src/error.rs: ReadError"])

p("Merging functions never makes a section larger",
  "If a section can be built and merge_adjacent_fdes returns, the section can be built afterwards and is not larger; it is smaller exactly if any functions were merged.",
  "every reachable builder, both profiles, both byte orders", "ranges over all builders; sizes depend on all functions and rows", [W+": SFrameBuilder::merge_adjacent_fdes, SFrameBuilder::build"])

p("Rewriting a section of any program keeps what it says",
  "A program that loads a section made by any program, in version 1 or 2, and adds its functions and rows to a builder gets, if that builds, a section of version 2 with the same ABI, fixed offsets and frame pointer flag, whose functions are those of the old one in order of start (the last of several with the same start), with the same size, key, type and repetition size, and whose rows, in order of start, tell the same as the old ones. The builder takes the section exactly if it loads and in each function all rows can be read, no two start at the same place and none starts at 2^28 or later.",
  "every byte string, both byte orders and profiles", "ranges over all sections; relates reader and writer", [R+": SFrame::load_bytes, FuncDescEntry, FrameRowEntry", W+": SFrameBuilder, FuncDescBuilder, FrameRowBuilder"])

p("Truncated sections are refused",
  "Of a section that loads, a prefix loads exactly if it contains all parts the header tells of, and is then the same section; otherwise the error is UnexpectedEof. A section that was built is refused whatever is cut off its end.",
  "every section, every length, both byte orders", "ranges over all sections and all lengths", [R+": SFrame::load_bytes", W+": SFrameBuilder::build"])

p("Lookups in sorted sections look at few functions",
  "fde_for_address in a section of n functions with the sorted flag looks at no more than log2(n) + 2 of them: with any other functions in the other places the answer (a function, none or a panic) is the same.",
  "every section, every address, both profiles, both search algorithms of the standard library", "ranges over all sections and everything that could stand in the other places", [R+": SFrame::fde_for_address"])

p("sframedump: columns stand under their headings",
  "In every line that sframedump prints for a row, the CFA, FP and RA begin in the columns in which CFA, FP and RA stand in the heading of the function.",
  "every row", "ranges over all offsets", [SD+": dump"])

p("Converter: options are what was last set",
  "After Options::new(arch, bases) and any calls of the setters each option is what the last call of its setter gave, and otherwise the default (merging on, warnings and dump off, no endian); calls for different options may change places; every combination can be made. The program sets the options from its flags and the file, and merges exactly without --no-opt.",
  "every sequence of calls, every value of the flags", "ranges over all sequences of calls", [L+": Options", M2+": main"])

p("The function info byte is that of the SFrame format",
  "Of every function in a section the reader gives the type, the key and the row type that the format keeps in bits 4, 5 and 0-3 of the info byte; of every function the writer stores them there; so do both converters.",
  "every section, every builder, every input of the converters, both byte orders", "ranges over all sections; the crate's own tests only read what it wrote", [V2+": FdeInfo", R+": FuncDescEntry::fdetype, pauth_key", W+": SFrameBuilder::build", L+": Dwarf2SFrame::convert", M1+": main"])

p("Printed numbers read back as themselves",
  "Every number that a program prints, decimal or hexadecimal, with or without sign, prefix and leading zeros, is a numeral that stands for that number; a number padded to a width has that width if it fits; a pointer has 18 characters, and stands in parentheses exactly if it is indirect; truth values are printed as true and false.",
  "every number of the type that is printed", "ranges over all numbers; a wrong base or sign can still be injective", [SD+": dump", DD+": dump_pointer", M1+": main", "crates/sframe/src/error.rs: ReadError"])

p("Behind each label of a printed section stands the value of that name",
  "A reader that knows only brackets, commas and labels finds in the {:?} text of a section, behind each label, the value of that name: the numbers, types, key and repetition size that the accessors of the section and its functions give, and for every row its start, base register, mangled flag and offsets, or the name of the error and the value it carries. The {:#?} text is the same up to spaces, line breaks and the commas before closing brackets.",
  "every section that can be printed, in any byte order; every read error", "ranges over all sections and rows", [R+": Debug for SFrame, FuncDescEntry, FrameRowEntry", RAW+": Preamble, Flags", V2+": FdeType, FreType, FreOffset", "crates/sframe/src/error.rs: ReadError"])

p("What a message says of the input is so",
  "Every message with which a row, a section or a conversion is refused, or with which a row of a section is not read, begins in one of a few ways, names the quantity or register it is about, and is true of what was refused: the numbers in it are those of the input, and the condition it states holds. So do the lines of warnings, which name the function, the offset and the rule or register; and the lines that the legacy converter prints for a row tell its range, CFA and rules.",
  "every refused input, every warning, every row", "ranges over all refused inputs", ["crates/sframe/src/error.rs: ReadError", W+": FrameRowError, EmitError", "crates/dwarf2sframe2/src/error.rs: Error", L+": warn, convert_row", "crates/dwarf2sframe2/src/display.rs", M1+": main", "crates/dwarf2sframe/src/fmthelp.rs: RegisterRule"])

p("sframedump: the listing reads back as the section",
  "A reader that knows only words, labels and numerals finds in the text that sframedump prints, whenever it succeeds, the header of the section, and function by function its number, address, size and type (by the mark in the heading) and every row that can be decoded with its address, CFA, FP, RA and mark of a signed return address. For a built section these are what was put into the builder.",
  "every section, every file on which the tool succeeds, every builder with storable rows", "ranges over all sections; needs a reader of the text", [SD+": dump, main"])

p("Call frame instructions are listed under their names, with their operands",
  "In a listing of call frame instructions every instruction stands on a line with the name that DWARF gives it and, in the order of DWARF, its operands: registers by name or number, numbers as numerals of the value. Behind it stand the operations of its expression in the same way, indented further.",
  "every list of instructions, whether they can be decoded or not; every table of register names that are distinct and contain no space or comma", "ranges over all instructions and operands", ["crates/dwarf2sframe2/src/dump.rs: dump_cfi_instructions, dump_expression", "crates/dwarf2sframe/src/dump.rs", DD+": dump_cfi_instructions, dump_expression"])

p("dwarfdump: the entries read back",
  "A reader that splits lines at the colon finds in what dwarfdump prints for a section, entry by entry and in their order, whether it is a CIE or an FDE, its offset, behind each label the value of that name (optional fields exactly if the entry has them; the end of a function behind its size), and its instructions or why the FDE could not be parsed.",
  "every file on which the tool succeeds without a message; otherwise every entry before the place where it stops", "ranges over all entries; needs a reader of the text", [DD+": dump_eh_frame, dump_pointer"])

p("Address lookups never panic",
  "`fde_for_address` and `get_fre_for_address` return for every section that loads, every function in it and every address.",
  "every section, every function, every address, both profiles, both search algorithms of the standard library", "ranges over all sections and addresses; debug and release builds differ", [R+": SFrame::fde_for_address, FuncDescEntry::contains, FuncDescEntry::get_fre_for_address"])

p("sframedump: what it lists and how it ends does not depend on stderr",
  "What sframedump writes to stdout, and its exit code, do not depend on whether stderr takes its messages.",
  "every input, every pair of streams, which may refuse what is printed at any time", "ranges over all ways in which streams can fail", [SD+": main, dump"])

p("dwarfdump: a success is complete, or a message was delivered",
  "If dwarfdump ends with exit code 0, then it met no error and stdout has taken everything it prints, or stderr has taken a message that names the file and says that the dump failed. What stdout has taken does not depend on stderr; the exit code does exactly if there is such a message and it is refused.",
  "every input, every pair of streams, which may refuse what is printed at any time", "ranges over all ways in which streams can fail", [DD+": main, dump_file"])

p("bpfunwind: add",
  "add returns the sum of its arguments if it is a usize; otherwise it panics in builds with overflow checks and returns the sum less 2^64 in others.",
  "all arguments, both profiles", "2^128 pairs of arguments", ["crates/bpfunwind/src/lib.rs: add"])

p("Converters: what the exit code says on any streams",
  "Whatever stdout and stderr take, a converter ends, with exit code 0, 1 or 101. It is 0 exactly if the whole object with the section it made was written, and then everything that is printed was taken. Otherwise nothing was written, or writing the object failed. What is written is what is written if everything can be printed, or nothing.",
  "every file system and all arguments, both converters, every pattern of prints that fail, both profiles",
  "Streams that fail at any one of arbitrarily many prints, and the absence of any write after that, cannot be sampled.",
  [f"{M2}:30-114", f"{M1}:30-350"])

p("Reader: bytes that mean nothing do not matter",
  "Two sections of the same length that differ only in the gaps between their parts, after the last part, in the padding of their functions and in the top three bits of the info bytes of their functions are refused with the same error, or both are loaded. In that case every method of the section, of its functions and of their rows returns the same for both, at every address; so do the dump and Debug.",
  "every pair of byte strings, both byte orders, versions and profiles, both binary searches, every address",
  "Pairs of unbounded byte strings, compared in everything a caller can ask of them.",
  [f"{R}:26-214, 340-822", f"{V2}:105-154, 70-102", f"{SD}:68-156"])

p("Code that is moved unwinds as before",
  "Take the call frame information of some code, and that of the same code at another place that SFrame can express. With either converter: if conversion and build of the first give a section, then so do those of the second, and it is of the same length. At every moved address fde_for_address followed by get_fre_for_address gives with the second section the rules, the error, the panic or nothing that it gives with the first at the address. The same holds of builders with moved functions, whether they can be built or not, and of any two sections with moved functions.",
  "every input, every distance in either direction, every address, both byte orders, profiles and binary searches",
  "All distances times all addresses times all inputs.",
  [f"{R}:173-214, 380-450", f"{W}:160-330", f"{L}:203-314", f"{M1}:30-350"])

p("sframedump: the listing of moved code",
  "The listing of a section whose functions are those of another one, moved, is the listing of the other one, line by line, with every address of a function or row moved by the same distance and nothing else changed; the runs end in the same way. So are the listings of the sections that either converter and the builder make of some code and of the same code at another place. Where addresses are computed with overflow checks this holds unless a function runs over the greatest address.",
  "every pair of sections with moved functions, every input of the converters, every distance in either direction, both profiles, both byte orders",
  "ranges over all sections, inputs and distances; relates two runs",
  [f"{SD}:68-156", f"{R}:618-629", f"{L}:203-314", f"{M1}:30-350"])

p("What is read of a function does not depend on the others",
  "Take two sections that have been built and have a function in common, whatever else is in them and whatever their byte orders. Every accessor of the function, its rows read in order, the bounds of their iterator, contains and get_fre_for_address return in both sections the same, at every address. So it is for sections made by either converter from two inputs that have a function in common which no later one replaces.",
  "every pair of builders or inputs with a common function, all byte orders, both profiles, every address",
  "ranges over all pairs of sections; what else is in a section is unbounded",
  [f"{W}:160-341", f"{R}:340-450", f"{L}:142-314", f"{M1}:30-350"])

p("Converter: the warnings for moved code",
  "If a conversion succeeds and all functions are moved by the same distance, to addresses that SFrame can express, then the conversion of the moved code prints as many lines of warnings, in the same order, and each differs from its counterpart in the address of the function only, which is that of the moved function; the offset of the row and the reason stay. With the debug dump off nothing is printed on stdout in either case.",
  "every input that can be converted, every distance in either direction, both architectures and profiles, all options",
  "ranges over all inputs and distances; relates two runs",
  [f"{L}:224-314, 330-463"])

p("Both converters: the report on moved code",
  "If a conversion succeeds and all functions are moved by the same distance, to addresses that SFrame can express, then what is printed of the moved code, line by line, is what is printed of the code, with the addresses of the functions and rows moved in the lines that show them and nothing else changed. The lines with addresses are, in this order, for each function of the input its start, its length and end, and for each row its start and end. This is so of the debug dump of the converter, and of all that the loop of the legacy converter prints on stdout and stderr.",
  "every input that can be converted, every distance in either direction, all architectures and profiles, all names and texts of the DWARF library",
  "ranges over all inputs and distances; relates two runs",
  [f"{L}:203-267", f"{M1}:110-313"])

p("Both converters: moved code is refused as before",
  "Move all functions by the same distance, from addresses that SFrame can express to others, without an address of a row that wraps around. The conversion of the moved code succeeds exactly if that of the code does, panics exactly if it does, and reports an error exactly if it does: the same error, in which the address, if it names one, is moved and the offset of the row or the length of the function is not. The conversion by the legacy tool ends in the same way as before, with the same error or the same panic if it fails.",
  "every input, every distance in either direction, both architectures and profiles, all options",
  "ranges over all inputs and distances; relates two runs",
  [f"{L}:142-314", f"{M1}:86-316"])

p("Both converters: entries are converted each by itself",
  "A section is converted exactly if each of its entries is converted when it is the only one, with the same CIEs. The conversion reports an error, or panics, exactly if the first entry that is not converted when alone is reported with this error, or panics. No entry makes another one fail, or saves it from failing. What either converter prints for a section that is converted, dump and warnings, is what it prints for the entries, each alone, in their order.",
  "every input, both architectures and profiles, all options, both converters",
  "ranges over all inputs; relates the run on a section to those on its entries",
  [f"{L}:142-314, 330-463", f"{M1}:86-316"])

p("Both converters: the run on a section is made of those on its entries",
  "What the conversion of a section prints, on stdout and stderr in their common order, and how it ends, with which error or which panic, is what the conversions of its entries, each alone with the same CIEs, print one after the other, up to and including the first that does not succeed, and how that one ends.",
  "every input, whether it is converted or not, both architectures and profiles, all options and texts of the DWARF library, both converters",
  "ranges over all inputs; relates the run on a section to those on its entries",
  [f"{L}:142-314, 330-463", f"{M1}:86-316"])

p("dwarfdump: the dump of a section is made of those of its entries",
  "After its title, the dump of a section consists of the dumps of its entries, each alone with the same CIEs, one after the other, up to and including the first that does not come to its end; and it ends as that one does, with the same error or panic, or with success if there is none. The cache of CIEs and the entries before have no influence.",
  "every section, whether it is dumped to the end or not, all architectures, both profiles, all texts of the DWARF library",
  "ranges over all sections; relates the run on a section to those on its entries",
  [f"{DD}:118-261"])

p("dwarfdump: the dump of moved code",
  "If the initial addresses of all FDEs of a section are moved by the same distance, with their instructions as they were (also the operand of a DW_CFA_set_loc), the dump of each entry is the one it had, and ends as it did, but for two lines of an FDE: its fifth line shows the start of the function at its new place and its sixth line the same length and the end at the new place. The dump of the section is made of these. In debug builds this needs the end of each function not to wrap around, before and after the move.",
  "every section, whether it is dumped to the end or not, every distance in either direction, all architectures, both profiles",
  "ranges over all sections and distances; relates two runs",
  [f"{DD}:118-261"])

p("Both converters and dwarfdump: appended entries only continue the run",
  "Let the entries of a section be those of a first list followed by those of a second. If the run on the first alone succeeds, the run on both prints what the run on the first prints and then what the run on the second prints, and ends as that one does, with the same error or panic. If the run on the first does not succeed, the run on both is the same run. So appended entries never change what is printed before.",
  "every two lists of entries, with the same CIEs, whether they are converted or not, all architectures, both profiles, all options and texts of the DWARF library",
  "ranges over all pairs of lists of entries; relates three runs",
  [f"{L}:142-314, 330-463", f"{M1}:86-316", f"{DD}:118-261"])

p("Both converters: repeated entries change nothing",
  "If entries are put in front of a section that are all among its entries already, in any order and number, the conversion succeeds exactly if it did, and the result is the same.",
  "every section and every list of its entries, with the same CIEs, all architectures, both profiles, all options, both converters",
  "ranges over all sections and lists of repetitions; relates two runs",
  [f"{L}:142-314", f"{M1}:86-316", f"{W}:89-93"])

if __name__ == "__main__":
    out = os.path.join(os.path.dirname(__file__), "..", "properties.jsonl")
    with open(out, "w") as f:
        for x in P: f.write(json.dumps(x) + "\n")
    print(len(P))
