#!/usr/bin/env python3
"""Writes MANIFEST.json: status, theorems and note of every property."""
import json, re, glob, os

ROOT = os.path.dirname(os.path.dirname(os.path.abspath(__file__)))

NOTES = {
    "C07": ("partial", "False of the code: nth does not apply the FRE start offset. Negation with a witness; the partial theorem says exactly when nth and next agree."),
    "C08": ("partial", "False of the code: next_back does not apply the FRE start offset. Negation with a witness; the partial theorem says exactly when both directions agree."),
    "C11": ("partial", "False of the code: an assertion on the row start panics on untrusted input. Negation with a witness; the partial theorem gives the exact panic condition."),
    "C16": ("partial", "False of the code: the comparator is inverted. Negation with a witness; the partial theorem says exactly which function of a sorted table is found, for both binary search algorithms."),
    "C17": ("partial", "False of the code for sorted sections (uses nth). Negation with a witness; the partial theorem says exactly when the entry agrees."),
    "C18": ("partial", "False of the code at address start+size. Negation with a witness; the partial theorems cover all other addresses and say what is found at this one."),
    "C19": ("partial", "False of the code: the first instead of the last row is returned. Negation with a witness; the partial theorem says exactly when the result is the governing row."),
    "C25": ("partial", "False of the code: offsets that the section needs are never demanded of a row. Negation with a witness; the partial theorem says that the two errors are never returned."),
    "C31": ("partial", "False of the code: a tie of magnitudes picks a width that is too small, a row without RA but with FP is misread, and a shrunk function makes the reader panic. Negations with witnesses; the partial theorems give the exact condition under which a function's rows read back, and what is read of every row otherwise."),
    "C32": ("partial", "False of the code: a positive and a negative offset of equal magnitude pick the wrong width. Negation with a witness; the partial theorem says exactly when the width fits."),
    "C40": ("partial", "False of the code: the difference of the starts is taken the wrong way round. Negations with witnesses (a release build loses a function; in both profiles the row of an address changes); termination is proved in full; what the code does is described exactly for every builder with any number of functions (C40_exact_partial), and it changes nothing exactly if no two neighbours meet the mistaken condition (C40_unchanged_iff_partial)."),
    "C41": ("partial", "False of the code: adjacent functions are never merged. Negations with a witness and for all inputs; the partial theorems say exactly what happens to two functions (and C40_exact_partial to any number), and that a function takes in at most one other."),
    "C42": ("proved", "Reader, writer and converter."),
    "C47": ("partial", "False of the code: a return address elsewhere than at CFA-8, a row outside its function, 2^28 bytes in or at the place of another one makes the converter panic. Negations with witnesses; the partial theorems give the exact panic condition and a sufficient condition for returning."),
    "C49": ("partial", "Proved in full for warnings. False of the code for debugdump: an expression that cannot be decoded, or in debug builds the end of a function beyond 2^64, stops the converter only if the dump is on. Negations with witnesses; the partial theorems cover all other inputs, say exactly when the conversion succeeds with the dump, and what happens at the first function whose dump does not go through."),
    "C52": ("partial", "False of the code: an offset that ties in magnitude with an earlier negative one is read back with the wrong sign. Negation with a witness; the partial theorems give the exact condition, the end-to-end statement from DWARF rows to loaded rows, and that nothing saved above the CFA suffices; C52_exact_partial says for every function, ties or not, what is read of each row."),
    "C53": ("partial", "False of the code: the address of .got is stored as the text base and the data base is never set, so a pointer relative to the data base is not resolved and one relative to the text base is resolved wrongly. Negations with witnesses; the partial theorem gives the base addresses of files without .got, and C53_only_these_bases shows what the conversion depends on."),
    "C55": ("partial", "False of the code: a row on which the reader asserts stops the whole dump, and in a debug build an address overflow does. Negations with witnesses; the partial theorem gives the complete listing for every section without such a row or function."),
    "C56": ("partial", "False of the code: a rule for RBP that SFrame cannot express is emitted as 'not saved'; a row of width zero is an error and a malformed rule of any register a panic, where the newer tool succeeds. Negations with witnesses; the partial theorems give the exact condition for success and the exact rules emitted, and when the tools agree."),
    "C57": ("partial", "False of the code: the section always declares little-endian AMD64 and is written in the byte order of the host. Negations with witnesses; the partial theorem shows that the claim holds exactly for little-endian x86-64 files on little-endian hosts."),
    "C60": ("partial", "False of the code: the section is read in the byte order of the host, so every valid object of the other byte order is refused. Negation with a witness; the partial theorem covers the objects of the host's byte order, and C04_valid_refused shows that all others are refused."),
    "C65": ("partial", "False of the code: a row with an FP offset but no RA offset, and a row with a width tie, are built to the same bytes as another row. Negation with two witnesses; the partial theorems cover all other builders, and say exactly which builders give the same bytes."),
    "C68": ("partial", "False of the code: mangled_ra_p is never set. Negation with an AArch64 witness; the partial theorem covers rows whose return address is not signed."),
    "C69": ("partial", "False of the code if a row has an explicit rule for the stack pointer (witness); the partial theorem covers walks of any length through rows without one and without signed return addresses, and C69_ties_partial says exactly, for all sections, which steps lead to another frame."),
    "C70": ("partial", "False of the code (C16, C17, C19 show on converted sections): negation with a witness of two functions and one of two rows; the partial theorems say exactly what is found if the input has a single function (the rules of its first row, so that the claim holds exactly where the covering row has the same rules), and what is found in sections of several functions (nothing, or the first row of the first function)."),
    "C72": ("partial", "False of the code: InvalidRowOffset prints neither the row nor the function (witness: two conversions with different errors of the same text); the partial theorem says exactly which errors have the same text."),
    "C73": ("partial", "False of the code: the texts say 0x10000000 where the limit is i32::MAX, 'larger than' where equality is refused, '1 to 3' where 0 is accepted, and blame the byte order for data that is not SFrame in either (witnesses); the partial theorem shows that a size that is blamed does reach the limit named, and that a section with the right magic number is never blamed for its byte order."),
    "C83": ("partial", "False of the code in debug builds: `freoff + fre_len` overflows (witness: a header of 28 bytes); the partial theorem says exactly when, and that otherwise, and in release builds always, the result is that of a 64-bit target."),
    "C84": ("partial", "False of the code: the base types of DW_OP_deref and DW_OP_register_offset are not printed (witness); the partial theorem shows that everything else is determined."),
    "C92": ("partial", "False of the code: a register without a name and the constant of the same value read the same (witness), and base types are not shown (C84); the partial theorem says exactly which functions have the same dump."),
    "C86": ("partial", "False of the code: an expression that cannot be decoded ends the dump with a line on stderr and exit code 0 (witness); the partial theorem has the hypothesis that stderr is empty; the other theorems say when the dump stops and that everything before that place is described."),
    "C87": ("partial", "False of the code: it panics without an argument, on a section that cannot be decompressed, and in debug builds on a function whose end overflows (witnesses); the partial theorem says that these are the only panics."),
    "C89": ("partial", "False of the code: on AArch64 the names of 32-bit Arm are used (witness); the partial theorems are about all other architectures, and say exactly which names agree."),
    "C95": ("partial", "False of the code: it complains about rows with the rule 'same value' for RBP, which it stores faithfully (witness). The partial theorems are the claim for all other rows, and say exactly about which rows it complains; that nothing is lost in silence is proved in full (C95_silent)."),
    "C96": ("partial", "False of the code: outside of rules, registers have the names of x86-64 whatever the architecture (witnesses). The partial theorem is the claim for x86-64 files; C96_iff says exactly when the name is right."),
    "C97": ("partial", "False of the code: a register without a name and the constant of the same value read the same (witness C97_number). The partial theorems say exactly which functions, and which runs, have the same output."),
    "C101": ("partial", "False of the code: a row whose rule for RBP SFrame cannot express is emitted as if RBP were unchanged, so the walker goes on with a wrong frame pointer (witness C101_wrong_frame). The partial theorems are the claim for walks by rows without such a rule and without a rule for the stack pointer (C69), and C101_ties_partial says exactly, for all sections, which steps lead to another frame."),
    "C103": ("partial", "False of the code: where the instructions give RBP a rule that SFrame cannot express, the section says that it is unchanged (witness C103_wrong_rules). The partial theorems say exactly which rules are found at every address, with ties and without, and prove the claim wherever RBP has one of the other rules."),
    "C105": ("partial", "False of the code: main never flushes its BufWriter, and the failure of the flush on drop is ignored (witness C105_unwritten; sframedumpOn_short shows the same of every listing below 8192 bytes). The partial theorem: what was taken is the start of the listing, at most 8192 bytes are missing after a success, none if stdout takes everything."),
    "C107": ("partial", "False of the code: a failing print panics, or is reported as an invalid FDE, and nothing is written (witnesses C107_depends and, on the print-by-print model, C107_print_by_print, for both converters). The partial theorems: which lines are printed and how, and that the first line that is refused decides the outcome; with any streams the run is that without failures, or it fails and writes nothing; without --debug-dump and --warnings the streams do not matter."),
    "C109": ("partial", "That the step reported is the first that failed, and that first lines tell the steps and files apart, is proved in full. What they name is false of the code in two cases: sframedump blames .eh_frame for a .sframe section that cannot be decompressed (witness C109_wrong_section), and the legacy converter reports a failing listing of instructions with gimli's text alone (witness C109_no_step). The partial theorems are the claim for all other errors."),
    "C113": ("partial", "False of the code for rows whose offsets are 128 and -128 (or 32768 and -32768) in wider fields, which the builder writes too narrow (witness C113_tie_changes; the cause is that of C32). The partial theorem is the claim with the rows of a function telling the same exactly if none of them has such a tie; which sections are taken is proved in full."),
    "C116": ("partial", "False of the code for offsets of ten digits (CFA) or more than eight (FP), which are longer than their columns (witness C116_shifted). The partial theorem is exact: the columns are right exactly for the other rows."),
    "C118": ("partial", "False of the code: the bits for type and key are one place lower than in the format, so a PCMASK function of another program is read as an ordinary one with key B (C118_misread, C118_masks_lost), and PcMask functions or functions with key B are written so that others refuse or misread them (C118_unreadable). Exactly the PcInc functions with key A are read and written as the format says (C118_reads_partial, C118_writes_partial); all functions of both converters are such (C118_converted, C118_legacy)."),
    "C121": ("partial", "False of the code in one word: a row whose frame pointer offset differs from that of the header is refused with a message about a function pointer (C121_function_pointer). Everything else holds, with that word read as frame pointer: C121_row_partial, C121_build, C121_load, C121_rows, C121_lookup, C121_accessors, C121_converter, C121_warnings, C121_legacy. Limits are the subject of C73."),
    "C125": ("partial", "False of the code: in a build with overflow checks a lookup of a function panics when it comes to one that the address lies more than i32::MAX behind (C125_functions_panic), and in any build a lookup of a row panics when it comes to a row that starts outside the function (C125_rows_panic). The partial theorems say exactly when, for unsorted sections, for sorted ones and for rows; without overflow checks lookups of functions always return (C125_functions_partial)."),
    "C126": ("partial", "False of the code: eprintln! panics if stderr refuses the message about an undecodable row or the help text, and what comes after is not listed (C126_depends). The partial theorem says exactly what is written and how the tool ends, for every stdout and stderr."),
    "C123": ("partial", "False of the code for some operations: DW_OP_plus_uconst, constants, registers, DW_OP_fbreg, calls and DW_OP_form_tls_address are listed under names that DWARF does not have, and operations such as DW_OP_or by their Debug text without indentation (C123_names_false, which C123_names_partial makes exact). All instructions are named as in DWARF (C123_instruction), all operands are those of the instruction or operation (C123_instruction, C123_operands; base types are the subject of C84), and the lines are in order (C123_listing)."),
    "C90": ("partial", "False of the code: whether an encoding is indirect is not printed (witness); the partial theorem shows that everything else is determined."),
    "C75": ("partial", "False of the code: a register without a name and a constant are printed alike (witness from two conversions); the partial theorems show that everything else is determined, and say exactly which texts agree."),
}

names = {}
for f in sorted(glob.glob(os.path.join(ROOT, "lean/Verif/Props/*.lean"))):
    ns = "Verif"
    for line in open(f):
        m = re.match(r"theorem (C(\d\d+)_\w+)", line)
        if m:
            names.setdefault("C" + m.group(2), []).append(f"{ns}.{m.group(1)}")

claims = []
for line in open(os.path.join(ROOT, "properties.jsonl")):
    pid = json.loads(line)["id"]
    if pid not in names:
        continue
    status, note = NOTES.get(pid, ("proved", ""))
    if status == "proved" and all(n.endswith("_partial") for n in names[pid]):
        raise SystemExit(f"{pid}: only partial theorems")
    claims.append({"property": pid, "status": status, "theorems": names[pid], "note": note})

with open(os.path.join(ROOT, "MANIFEST.json"), "w") as out:
    json.dump({"claims": claims}, out, indent=1)
    out.write("\n")
