# Formal model of Phantomical/dwarf2sframe

Lean 4.33.0, project in `lean/`. Everything is checked by Lean's kernel.

## Layout

| directory | content |
|---|---|
| `lean/Verif/Base`  | Rust run-time vocabulary: outcomes (value / panic / divergence), machine integers, byte orders, the `BTreeMap` contract |
| `lean/Verif/Model` | the code, function by function; every definition cites file and lines in `/repo` |
| `lean/Verif/Spec`  | small independent specifications (no use of model helpers beyond the data types) |
| `lean/Verif/Proofs`| helper lemmas |
| `lean/Verif/Props` | the property theorems (`C01_…`), each with a non-vacuity example |

## Modelling decisions

* `u8/i8 … u64/i64` are `BitVec n`; signedness is in the operation (`toNat`/`toInt`), so
  `as` casts are `setWidth`/`signExtend`/identity, exactly as in Rust.
* A panic is a value (`Rust.panic reason`), an unbounded loop that does not end is a value
  (`Rust.diverge`); Rust's `Result` is `Except`, so "returns an error", "panics" and "hangs" are
  three different observable outcomes.
* Loops over a mutable structure take fuel and return `Rust.diverge` if it runs out; the theorems
  show that this outcome is never produced.
* The build profile is a Boolean `dbg`: `true` = debug assertions and overflow checks (cargo `dev`/`test`),
  `false` = release (wrapping). `Cargo.toml` overrides neither in `[profile.release]`.
* `usize` is 64 bit (no slice-length arithmetic of the reader can overflow); `Model/Narrow.lean` says what changes
  in the reader with 32 bits.
* `BTreeMap<K,V>` is a list of pairs ordered by key, with insert / remove / range / first / last / len /
  values given by their documented contract. `slice::Iter` is the list of remaining elements.
* `slice::binary_search_by` is modelled twice: the algorithm of the Rust releases contemporary with the
  commit (1.52–1.81) and the one of 1.82+.
* zerocopy's `ref_from_prefix` / `slice_from_prefix` are length checks followed by field reads at fixed
  offsets (all types are packed and unaligned, so alignment never fails).
* gimli, object, clap, memmap2, anyhow and the OS are parameters: the converter takes the stream of entries, the
  parse results, unwind rows and dump results that gimli would produce, as arbitrary data.

## Trusted base

* Lean's kernel; axioms: at most `propext`, `Classical.choice`, `Quot.sound` (see the end of this file).
* That the model is a faithful reading of the Rust text: nothing was executed.
* The contracts above for std, zerocopy, tinyvec, bitflags and gimli.

## What is modelled

| code | model | how |
|---|---|---|
| `sframe/src/read.rs`, `raw/{mod,v1,v2}.rs` | `Model/Raw.lean`, `Model/Read.lean`, `Model/Debug.lean`, `Model/DebugText.lean` | every function; `fmt::Debug` gives the fields and values shown, and their layout by `{:?}` and `{:#?}`; the texts of the two `c_enum!` types are a parameter |
| `SFrame::load` with 32-bit `usize` | `Model/Narrow.lean` | the whole function |
| `sframe/src/write.rs` | `Model/Write.lean` | every function |
| `Display` of the errors of both crates, lines of warning | `Model/Texts.lean` | the text; gimli's part of it is a parameter |
| `dwarf2sframe2/src/lib.rs`, `error.rs` | `Model/Gimli.lean`, `Model/Convert.lean` | every function; warnings are data (start, offset, message) |
| `dwarf2sframe2/src/dump.rs`, `display.rs` | `Model/Convert.lean`, `Model/Cfi.lean` | control flow (which input makes the dump fail or panic) and the text of the listing of instructions |
| `dwarf2sframe2/src/lib.rs`: debug dump and warnings | `Model/Report.lean` | the converter once more with everything it prints, also if it then fails or panics; gimli's texts are a parameter |
| `dwarf2sframe2/src/main.rs` | `Model/Object.lean`, `Model/Main2.lean` | everything after argument parsing |
| `dwarf2sframe/src/main.rs`, `dump.rs`, `fmthelp.rs` | `Model/Main1.lean`, `Model/Report1.lean` | everything after argument parsing; the second file has it once more with what it prints, messages on stderr being data |
| `dwarf2sframe/src/bin/dwarfdump.rs` | `Model/Dwarfdump.lean`, `Model/Cfi.lean` | everything, with the text of stdout; the texts of errors, names of registers and of encodings are parameters |
| `sframedump/src/main.rs` | `Model/Dump.lean` | control flow and the text of stdout |
| exit codes, reports of errors, arguments of `sframedump` | `Model/Process.lean` | the texts of the tools; those of the operating system and other crates are parameters, as is `getopts` |
| the four tools on streams that fail | `Model/Stream.lean` | `BufWriter` and where the tools flush; for the converters the first print that fails |
| both converters, print by print | `Model/Printing.lean` | the converters once more, asking before each line whether the stream takes it; `println!`/`eprintln!` panic if not, the `writeln!` of a listing of instructions returns the error; proved to agree with `Model/Report.lean`, `Model/Report1.lean` and the plain converters |
| `sframedump` and `dwarfdump` on a stderr that fails; `bpfunwind/src/lib.rs` | `Model/Stderr.lean` | where `eprintln!` panics; `add` |

Not modelled: `fmt::Debug` with other flags than `#`, and of types other than `SFrame`, `FuncDescEntry`, `FrameRowEntry` and what they show, allocation failure,
performance, memory safety of the `unsafe` mmap, argument parsing (clap, getopts),
the shell script. The three tests of the repository are run on the model in `Props/Tests.lean`.

Contracts assumed of other crates: `Model/Gimli.lean` and `Model/Object.lean` say which; C63 additionally assumes
(as an explicit hypothesis, `Spec.ReadsBack`) that the object crate reads back the sections, architecture and byte order
that it emitted.

`Spec/Execute.lean` (C99) has the meaning of call frame instructions by DWARF 5, 6.4.2 and 6.4.3, and as a contract (`Executed`) the table that
`gimli::UnwindTable` makes of them: rows handed out without an error are those of the table.

`Spec/Unwind.lean` (C68–C70) is a semantics of one unwinding step. It fixes: the stack pointer of the caller is the CFA unless a rule
says otherwise; a register without a rule keeps its value; the return address of a call is looked up one byte before it.
It leaves open: the memory, the value of DWARF expressions, and how the signature is stripped from a return address.

## Plan per property

Reader (`Model/Read.lean`), by case analysis on the modelled control flow against `Spec/Layout.lean`, which gives
byte positions as numbers:
C01, C02, C03 (case analysis; prefix monotonicity of every read), C04 (magic is not a palindrome), C05 (case analysis),
C06 (induction over the remaining table), C07, C08 (expected false: `nth` and `next_back` do not apply the start offset;
negation by witness, partial theorem for headers and for offset-0 entries), C09, C10 (induction on FREs left),
C11 (expected false: `assert!` on the row start; exact panic condition), C12 (case analysis against a byte-level
decoder spec), C13 (integer arithmetic), C14 (contract of binary search: `Ok(i)` only when the comparison is Equal),
C15 (induction), C16 (expected false: comparator is inverted; prove precisely which FDE is found),
C17 (expected false, same as C07), C18 (expected false at address = start+size; partial elsewhere),
C19 (expected false: first instead of last row; characterise; partial for one-row functions), C20, C21, C22 (arithmetic),
C23 (finite bit-vector reasoning over all bytes).

Writer (`Model/Write.lean`): invariants over arbitrary API call sequences (rows sorted, start = key, start < 2^28,
fixed offsets dropped, options equal).
C24 (decision table), C25 (expected false), C26 (sorted-list argument: a non-adjacent overlap implies an adjacent one),
C27 (invariant), C28, C29 (unfold the emission loop against a closed-form layout), C30, C31 (encode/decode induction;
C31 expected false in three ways — truncation tie, missing RA, function shrunk after adding rows — exact condition for success),
C32 (expected false at the tie; exact condition), C33 (invariant), C34 (sorted-map extensionality), C35, C36, C37,
C38, C39 (loop invariant on the sorted row list), C40 (termination: number of keys from the cursor on decreases; preservation
expected false in wrap-around cases, partial for non-negative addresses), C41 (expected false: the sign of `relative` is wrong;
prove the merge is the identity on every section the converter can produce), C42 (two-run simulation).

Converter (`Model/Convert.lean`), over arbitrary gimli data:
C43–C46 (simulation with a per-row translation spec), C47 (expected false: RA mismatch on amd64, rows ≥ 2^28, rows outside the function;
partial under exact conditions), C48–C52 (two-run relations, composition with C31), C53 (expected false: `.got` is stored as text base),
C54 (stage order), C55 (sframedump lines), C56, C57 (legacy tool; expected false).
C58 (two-run relation), C59 (accumulation over the stream), C60 (expected false: `sframedump` reads in host order), C61 (injectivity of
the line and list formats), C62 (composition of C30/C31 with the dumper), C63 (composition of C52, the object file and the dumper),
C64 (case analysis against a bitwise condition), C65 (expected false at the ties of C31; decoder as left inverse), C66 (sublist argument),
C67 (simulation of the iterators), C68 (expected false: nothing in the converter sets the flag), C69 (induction over the walk, composing C52
with a semantics of DWARF and SFrame rules; expected false for explicit rules for SP), C70 (expected false by C16, C17, C19; composition),
C71, C72, C75 (the kinds of message differ in their first characters, numbers are read back; C72, C75 expected false), C73 (expected false;
witnesses at the limits), C74 (case analysis, and an input for every error),
C76 (simulation by a pair of positions), C77 (every row consumes at least two bytes), C78 (every read stays below the end of its row),
C79 (composition of C28, C30 with the reader, in both byte orders),
C80 (permutation of the stream; the result is a sorted map), C81 (every step factors through the projection), C82 (every check is on differences, except for the start),
C83 (expected false; the same steps as C02 with the overflow condition),
C84, C85 (words and operands read back from a line, lines of operations told apart from lines of instructions; C84 expected false),
C86–C89 (the run as a list of blocks, one per entry; C86, C87, C89 expected false), C90 (fields read back line by line, optional lines told apart by their first characters; expected false),
C91 (the traced converter refines the converter; case analysis of where it stops), C92 (blank lines delimit the parts of a function, the first characters the rows; expected false),
C93 (rules that read the same are translated alike),
C94 (as C91), C95 (case analysis of the row closure; expected false), C96 (the texts are functions of the names; expected false),
C97 (lines one by one: blank lines delimit functions, the first five characters the parts of a row; expected false), C98 (as C93),
C99 (the table of an instruction sequence is a chain of rows; a row that covers an address carries the rules of the standard's procedure; then C52),
C100 (both sides by the row that governs an address; the two readings of a row differ only in RBP), C101 (expected false, as C56; step by step along the DWARF walk),
C102 (the starts of the chain of rows are the locations of the instructions; a location before the end starts a row that covers an address),
C103 (as C99; expected false, as C56), C104 (as C102; every row counts).
Rows with a width tie (C31) are covered in C52, C62, C63, C69, C70, C99, C100, C101 and C103 by saying what is read of them: the offsets of the largest magnitude as negative numbers (`asStored`; `readRow` and `readLine` for rows of any builder).

Streams (`Model/Stream.lean`): C105 (expected false: nothing flushes), C106 (taken ++ buffer ++ rest = everything is an invariant of the writer; a successful flush empties the
buffer), C107 (expected false: `println!` panics; all prints come before the only write).
Print by print (`Model/Printing.lean`): C107 once more (every computation is its report, cut at the first print that is refused), C129 (a run that is cut writes nothing; otherwise it is the run of C54 or C57).

Bytes without a meaning (`Props/Unused.lean`): C130 (gaps, padding and the unused bits of an info byte change nothing a caller can see; `SameMeaning` says which bytes these are).

Moved code (`Props/Moving.lean`): C131 (the two lookups of the reader, `foundRules`, do not see where the code is: for sections, for builders and, with C82 and its counterpart for the legacy converter, from the call frame information on).
The listing of moved code (`Props/MovingDump.lean`): C132 (`movedListing`: the lines of `sframedump` with their addresses moved; release builds wrap, so there no range is assumed).
The warnings for moved code (`Props/MovingWarn.lean`): C134 (`WarnMoved`; the lines are those of C91 and C121, the addresses in them are read back as in C119).
The report on moved code (`Props/MovingText.lean`): C135 (`Marked`: the lines with addresses, told from the others; `marksOf`: which of them are due; the texts are those of C91 and C94).
Moved code that is refused (`Props/MovingFail.lean`): C136, for both converters (`Movable`: no address wraps around; without this it is false, the last example there shows an input that panics and is reported once it is moved).
Entries by themselves (`Props/Alone.lean`): C137 (`alone`: a section with one entry; for the newer tool from C44 and C47, for the legacy one by induction, with the kind of panic).
Runs on the entries (`Props/Alone2.lean`): C138 (`inSequence`: runs one after the other up to the first that fails; says more than C137 of runs that fail, where the printed lines and the kind of panic are included).
Dumps of the entries (`Props/Alone3.lean`): C139 (`aloneIn`: a world in which the section has one entry; `afterTitle`: without the first line).
The dump of moved code (`Props/MovingDwarf.lean`): C140 (`withAddresses`: the two lines of an FDE that show addresses, from C139 for each entry).
Appended entries (`Props/Appended.lean`): C141 (`Continues`: one run after the other; from C138 and C139; `holding`, `holdingIn`: a section with given entries).
Repeated entries (`Props/Repeated.lean`): C142 (of several functions with one start the last counts, C51; so entries that come once more later do not matter).
Functions by themselves (`Props/Separate.lean`): C133 (`ShownAlike`: every method of a function and of its rows returns the same; unlike C78 the function may lie elsewhere in the table and its rows elsewhere in the section, in another byte order).  `fde_for_address` is not in it: by the findings for C16 and C17 what it returns does depend on the other functions.
`Spec/Rewrite.lean` (C110) is a program that is not in the repository; it uses the reader and the builder through their public functions
(what is read of an emitted section is known from C30 and C31; building depends only on what C65 says remains).
C113 is about the same program and sections made by others (the rows that can be read start inside their function and have no FP offset without RA offset, so
only width ties are lost; the functions are keyed by start, so the last one wins).
C114 (the header fields of a prefix are those of the whole; C02). C115 (each turn of the search halves the range; by induction on the fuel, for both algorithms).
C116 (positions of characters; expected false for long offsets). C117 (by induction on the calls, setting by setting).
C118 (`Spec/Published.lean` is the table of the info byte in the format document to which raw/v2.rs:3-4 refers; the document is not in the
repository, so the table is part of what is trusted in C118. All other properties take the layout from the code; expected false),
C119 (`Spec/Numeral.lean` reads numerals by the codes of the characters; reading back the digits by induction on the number).
C120 (`Spec/DebugText.lean` reads bracketed text with labels; that it finds the parts again is an induction on the tree of values, with the depth of brackets as the invariant).
C121 (`Spec/Messages.lean` has tables of how messages begin and what they then say of the input; from the theorems on which error occurs when, and C119; expected false for the message about the frame pointer).
C122 (`Spec/Listing.lean` reads a listing by words, labels and numerals; line by line from C119, then C55 for the lines and C30, C31 for built sections; the name of an ABI, which the `c_enum` crate prints, is a parameter without newlines).
C123 (`Spec/CfiText.lean` has the tables of DWARF 5, 7.7.1 and 7.24, and the operands in the order of the standard; line by line from C119; expected false for the names of some operations).
C124 (`Spec/DwarfText.lean` reads a line as label and value; from C119 and C123; the texts of encodings and errors, which gimli prints, are parameters).
C125 (inductions over both binary searches; expected false because of the subtraction in `contains` and in the comparator, and because of C11; exact conditions).
C126 (the steps of `dump` up to the first message that is refused, which a flush precedes; expected false: `eprintln!` panics), C127 (C106 and the case of a message), C128 (`crates/bpfunwind` is a `cargo new` stub; arithmetic).
C112 (merged functions keep the rows of the first; functions that do not overlap end before the next starts, and so does what they are merged to).
C111 (the text of a value, followed by what may follow it, tells the value: by induction, in both layouts; indented lines end at the first line that is not).
C108, C109 (case analysis over the steps; first lines begin with prefix-free texts; expected false where a text was copied).

## Findings

The code violates the claims below; the theorem named is the counterexample or the general negation, and the
`_partial` theorem of the property says what does hold.

* C07, C08 `nth` and `next_back` of the FDE iterator give entries whose rows are those of the first function
  (`C07_nth_disagrees`, `C08_next_back_disagrees`).
* C11 a row that starts outside its function panics the reader instead of being an error (`C11_fre_panics`).
* C16 the binary search over sorted tables is inverted and misses most functions (`C16_sorted_lookup_misses`).
* C17 where it finds one, the rows are wrong (`C17_lookup_wrong_rows`).
* C18 an address just past a function is looked up in it (`C18_lookup_past_end`).
* C19 the first matching row is returned instead of the one in force (`C19_lookup_not_governing`).
* C25 `MissingRaOffset`/`MissingFpOffset` are never reported (`C25_missing_offsets_accepted`).
* C31, C32, C52, C65 offsets -128 and 128 (or -32768 and 32768) in one row: the second is stored with the wrong sign; a row with FP but
  without RA is read with FP as RA; a function shrunk after adding rows panics the reader (`C31_tie_misread`, `C31_missing_ra_misread`, `C31_shrunk_panics`, `C52_tie`, `C65_not_injective`).
* C40, C41 `merge_adjacent_fdes` computes the distance with the wrong sign: it merges no adjacent functions, and functions that are not adjacent in rare cases.
* C47 the converter panics on valid DWARF (return address elsewhere than at CFA-8 on AMD64, and others).
* C49 `debugdump` turns undecodable expressions into failures of the conversion.
* C53 the address of `.got` is passed as the text base.
* C55 one bad row stops the whole dump; in debug builds so does an address above `i32::MAX`.
* C56, C57 the legacy converter emits wrong rules for RBP, fails on rows of width zero and always declares little-endian AMD64.
* C60 `sframedump` refuses objects of the other byte order.
* C68 signed return addresses are never marked (`C68_signed_unmarked`). (`main.rs` also never tells gimli the AArch64 vendor, so the
  opcode that says so would be refused before.)
* C69 an explicit rule for the stack pointer is dropped without a warning (`C69_stack_switch`).
* C70 the reader's own lookups give wrong rules, or none, on converted sections (`C70_other_function`, `C70_other_row`).
* C72 `InvalidRowOffset` does not print the address it carries (`C72_rows_alike`).
* C73 texts of errors state wrong limits or reasons (`C73_start_limit`, `C73_row_limit`, `C73_count_limit`, `C73_byte_order`).
  `UnsupportedFdeType` is never reported (C74).
* C121 the message for a wrong frame pointer offset speaks of a function pointer (`C121_function_pointer`).
* C123 eight kinds of operations are listed under names that DWARF does not have (`DW_OP_plusconstant` for `DW_OP_plus_uconst` and so on), and those without a case of their own, such as `DW_OP_or`, by their `Debug` text without indentation (`C123_names_false`, `C123_names_partial`).
* C125 address lookups panic: in builds with overflow checks when the address lies more than `i32::MAX` behind a function that the search comes to, even if a later function covers it (`C125_functions_panic`); in all builds when a row starts outside its function (`C125_rows_panic`).
* C126 `sframedump` panics, and does not list what is left, if stderr refuses the message about an undecodable row; also if it refuses the help text (`C126_depends`).
* C83 on 32-bit targets, debug builds of `SFrame::load` panic on a header whose row area ends beyond 2^32 (`C83_load_panics`).
* C84 the listing of instructions of `dwarf2sframe2` leaves out base types (`C84_base_types`).
* C86 `dwarfdump` succeeds although it stopped in the middle of the section (`C86_success`).
* C87 `dwarfdump` panics without an argument, and on other inputs (`C87_panics`).
* C89 `dwarfdump` uses the names of 32-bit Arm registers on AArch64 (`C89_aarch64`).
* C90 `dwarfdump` does not show whether an encoding is indirect (`C90_indirect`).
* C92 The debug dump does not tell a register without a name from the constant of the same value (`C92_number`), nor base types (C84).
* C95 the legacy converter complains about rows with "same value" for RBP although it stores them faithfully (`C95_spurious`).
* C96 the legacy converter names registers as x86-64 does in files of all architectures (`C96_wrong_names`, `C96_wrong_run`).
* C97 the output of the legacy converter does not tell a register without a name from the constant of the same value (`C97_number`).
* C101 a walker with a section of the legacy converter goes on with a wrong frame pointer after a function that keeps RBP elsewhere than on the stack, where it should stop (`C101_wrong_frame`).
* C103 where the instructions say that RBP is in a register, or at an address that is computed, the legacy section says that it is unchanged
  (`C103_wrong_rules`).
* C105 `sframedump` reports success although stdout took nothing of the listing (`C105_unwritten`).
* C107 a converter whose diagnostics cannot be printed panics, or blames the input, and writes nothing (`C107_depends`, `C107_print_by_print`).
* C109 `sframedump` reports a `.sframe` section that cannot be decompressed as `.eh_frame`; the legacy converter reports an undecodable expression
  in its listing without saying what failed.
* C113 a section of another program with offsets -128 and 128 in two bytes each is rewritten with a wrong sign, without an error (`C113_tie_changes`).
* C116 offsets of more than twelve characters shift the columns of `sframedump` (`C116_shifted`).
* C118 the function info byte keeps the row type in three bits, not four, so that the type of function and the key are one bit lower than in the
  SFrame format: PCMASK functions of other programs are read as ordinary functions with key B, and PcMask functions are written with a row type
  that does not exist (`C118_misread`, `C118_unreadable`). The sections of both converters are not affected (`C118_converted`, `C118_legacy`).
* Not a property, but seen: the debug dump labels the absolute address of a row `offset:` (`reportRow`).
* C75 a register without a name and a constant read the same in a warning (`C75_number`).

## How the edits in `seeded/LOG.jsonl` were judged

An edited model was checked by joining the modules that depend on the edited one into a single file.
Joining alone breaks four proofs (`legacyRowsT_cons`, `rowT_snd`, `apart_first`, `C109_line_legacy`), with no edit at all.
This was noticed late.
Earlier versions of the log therefore named theorems that the edit did not break: `C94_*`, `C95_silent`, `C97_*`, `C98_section` in 49 hand-made entries.
For 13 of those no other theorem was named.

The log was corrected as follows.

- Every pair of a set of edits and an edited file was run once without an edit. Theorems that failed there are not named by any entry that was judged in a joined file.
- The 13 entries, 38 automatic ones and 5 whose theorems had been filled in by hand were run again with `lake build`, module by module, after an unedited build of the same copy had succeeded. Their entries have a note.
- Of these 56, 48 break a theorem, 3 break only examples, and 5 break nothing because they are equivalent on everything that can be reached.

The oldest results of the first set were made in earlier copies of the project; the run without an edit was made in its last copy only.
For automatic edits `failed` holds the first theorem that fails, and the claim is found from the theorems that rest on it.
An error that Lean reports for a whole declaration stands at its comment, so that for automatic edits the theorem before the failing one may be named.
The three edits that only break examples led to C119.
A theorem named in `failed` is one whose proof no longer goes through; that by itself does not show that its statement is false.

## Axioms of the claimed theorems

Written by `tools/gen_axioms.py` from `#print axioms`.

* no axioms: C117_all, C119_bool, C53_got_replaces_text, C71_emit, C71_row, C88_bases.

* `propext`: C117_last, C117_program, C24_refused, C25_missing_offsets_accepted, C40_changes_row, C47_panics_duplicate, C47_panics_offset, C47_panics_outside, C47_panics_ra, C47_panics_underflow, C49_dump_error, C49_dump_panics, C53_bases_partial, C56_malformed_rule, C56_wrong_rules, C56_zero_width, C68_signed_unmarked, C72_rows_alike, C73_byte_order, C73_start_limit, C75_number, C83_load_panics, C84_base_types, C84_control.

* `propext`, `Quot.sound`: C07_nth_agrees_partial, C07_nth_disagrees, C08_next_back_disagrees, C08_next_back_partial, C101_wrong_frame, C103_wrong_rules, C108_no_file, C109_cause_legacy, C109_cause_newer, C109_code_legacy, C109_code_newer, C109_names_legacy_partial, C109_names_newer, C109_report_dump, C109_step_legacy, C109_step_newer, C110_made, C113_tie_changes, C117_order, C118_misread, C11_fre_panics, C121_accessors, C125_functions_panic, C125_rows_panic, C128_add, C139_dump, C140_dump, C141_dump, C16_sorted_lookup_misses, C17_lookup_rows_partial, C17_lookup_wrong_rows, C18_lookup_past_end, C19_lookup_not_governing, C22_start_address, C23_fde_info, C23_fre_info, C23_no_unreachable, C23_offset_count, C31_missing_ra_misread, C31_shrunk_panics, C31_tie_misread, C32_width_too_small, C37_setters, C40_release_loses_function, C41_not_merged, C41_once_partial, C42_reader, C42_writer, C48_zero_width, C50_cache, C52_tie, C52_usual_partial, C53_only_these_bases, C53_wrong_address, C54_failure, C54_only_complete_objects, C54_success, C55_address_overflow, C55_bad_row_stops_dump, C57_success, C57_wrong_architecture, C57_wrong_byte_order, C60_foreign_refused, C65_not_injective, C69_stack_switch, C70_other_function, C70_other_row, C73_count_limit, C73_row_limit, C81_essential, C86_prefix, C86_success, C87_panics, C88_only_these, C89_aarch64, C89_exact_partial, C89_names_partial, C90_indirect, C91_result.

* `propext`, `Classical.choice`, `Quot.sound`: C01_load_total, C02_load_error, C02_load_fields, C02_load_succeeds_iff, C03_trailing_bytes, C04_valid_refused, C04_wrong_endian, C05_versions_kept_apart, C06_fdes_enumerates, C09_fre_iteration, C100_agree, C100_exact, C101_exact_partial, C101_ties_partial, C101_walk_partial, C102_converts_iff, C103_instructions_partial, C103_ties_partial, C104_converts_iff, C105_unwritten, C105_written_partial, C106_written, C107_converter_partial, C107_depends, C107_exact1_partial, C107_exact_partial, C107_legacy_partial, C107_print_by_print, C107_quiet_partial, C108_failure, C108_success, C109_cause_dump, C109_line_dump, C109_line_legacy, C109_line_newer, C109_names_dump_partial, C109_no_step, C109_step_dump, C109_wrong_section, C10_size_hint, C110_panics, C110_rewrite, C111_text_exists, C111_text_same, C111_text_tells, C112_merged_smaller, C113_accepts, C113_keeps_partial, C114_built, C114_truncated, C115_few, C116_columns_partial, C116_heading, C116_shifted, C118_converted, C118_legacy, C118_masks_lost, C118_reads_partial, C118_unreadable, C118_writes_partial, C119_decimal, C119_hex, C119_pointer, C119_signed, C119_width, C11_fre_panics_iff_partial, C120_errors, C120_lines, C120_section, C121_build, C121_converter, C121_function_pointer, C121_legacy, C121_load, C121_lookup, C121_row_partial, C121_rows, C121_warnings, C122_built, C122_reads_back, C122_tool, C123_instruction, C123_listing, C123_names_false, C123_names_partial, C123_operands, C124_entry, C124_prefix, C124_run, C125_functions_partial, C125_rows_partial, C125_sorted_partial, C125_unsorted_partial, C126_depends, C126_exact_partial, C127_told, C129_legacy, C129_newer, C129_same, C12_fre_decodes, C12_rows_decode, C130_unused_bytes, C131_built, C131_contains, C131_converted, C131_function, C131_legacy, C131_row, C132_built, C132_converted, C132_legacy, C132_section, C133_converted, C133_function, C133_legacy, C134_warnings, C135_dump, C135_legacy, C136_fails, C136_legacy, C137_entries, C137_legacy, C137_legacy_printed, C137_printed, C137_warnings, C138_legacy, C138_run, C13_contains_exact, C141_legacy, C141_run, C142_legacy, C142_repeated, C14_found_covers, C15_checked, C15_unchecked, C15_unsorted_lookup, C16_sorted_lookup_partial, C18_at_end_partial, C18_lookup_outside_partial, C19_lookup_partial, C20_pcmask_periodic, C20_pcmask_row, C20_pcmask_zero, C21_decoded, C21_offset_accessors, C24_row, C25_never_missing_partial, C26_overlap, C27_build_total, C28_layout, C29_too_large, C30_round_trip, C31_exact_partial, C31_rows_partial, C32_offset_width_partial, C33_start_width, C34_functions_any_order, C34_rows_any_order, C35_fde, C36_sorted, C38_merge_preserves, C39_merge_complete, C40_disjoint_partial, C40_exact_partial, C40_merge_preserves_partial, C40_terminates, C40_unchanged_iff_partial, C41_never_merged, C41_two_partial, C42_converter, C43_options, C44_error, C44_named, C44_no_partial_result, C45_row, C45_rows, C46_unwinds_alike, C47_ordinary_partial, C47_panics_iff_partial, C49_dump_partial, C49_first_trouble_partial, C49_success_iff_partial, C49_warnings, C51_last_wins, C52_exact_partial, C52_rows_partial, C52_unwinds_partial, C54_section, C55_dump_partial, C56_converts_partial, C56_functions, C56_succeeds_iff_partial, C56_unwinds_partial, C57_iff_partial, C57_section, C58_merge_options, C59_warnings, C60_host_order_partial, C61_text_faithful, C62_dump_of_built, C62_exact, C63_end_to_end, C63_exact, C64_lookup, C65_injective_partial, C65_same_bytes_partial, C66_merged_smaller, C67_debug, C68_unsigned_partial, C69_exact_partial, C69_never_wrong_partial, C69_ties_partial, C69_walk_partial, C70_first_partial, C70_several_partial, C70_single_partial, C71_read, C72_text_partial, C73_limits_partial, C74_accessors, C74_load, C74_lookup, C74_rows, C75_exact_partial, C75_text_partial, C76_mixed_iteration, C77_rows, C77_section, C78_rows_local, C78_sections_local, C79_byte_order, C80_any_order, C82_moved, C83_load_partial, C84_text_partial, C85_equal, C85_text, C86_complete_partial, C86_stops, C87_panics_partial, C90_text_partial, C91_silent, C91_stopped, C91_success, C92_number, C92_text_partial, C93_section, C94_result, C94_run, C94_stopped, C94_success, C95_exact_partial, C95_row_partial, C95_silent, C95_spurious, C96_iff, C96_names_partial, C96_rules, C96_wrong_names, C96_wrong_run, C97_number, C97_run_partial, C97_text_partial, C98_section, C99_instructions, C99_ties.
