import Verif.Props.MovingWarn
import Verif.Props.Report1
/-!
# C135: what the converters print about moved code
-/

namespace Verif
namespace Spec

/-- Something printed: a line with addresses, or something else. -/
inductive Marked (α : Type)
  /-- the start of a function -/
  | start (a : U64)
  /-- the length and the end of a function -/
  | range (len end_ : U64)
  /-- the start and the end of a row -/
  | row (start end_ : U64)
  | other (x : α)

/-- It is a line with addresses. -/
def Marked.addressed {α : Type} : Marked α → Bool
  | .other _ => false
  | _ => true

/-- The same with its addresses moved. -/
def Marked.by {α : Type} (d : U64) : Marked α → Marked α
  | .start a => .start (a + d)
  | .range len end_ => .range len (end_ + d)
  | .row a end_ => .row (a + d) (end_ + d)
  | .other x => .other x

/-- What is printed says this; `line` is the printing of a line. -/
def Marked.Says {α : Type} (line : String → α) : Marked α → α → Prop
  | .start a, e => ∃ s x, e = line s ∧ s.toList = " start_address: ".toList ++ x ∧
      Numeral.readHex x = some a.toNat
  | .range len end_, e => ∃ s x y, e = line s ∧
      s.toList = "    range_size: ".toList ++ x ++ " (end_addr = ".toList ++ y ++ ")".toList ∧
      Numeral.readHex x = some len.toNat ∧ Numeral.readHex y = some end_.toNat
  | .row a end_, e => ∃ s x y, e = line s ∧
      s.toList = "  - offset: ".toList ++ x ++ " (end = ".toList ++ y ++ ")".toList ∧
      Numeral.readHex x = some a.toNat ∧ Numeral.readHex y = some end_.toNat
  | .other x, e => e = x

/-- The lines with addresses that are due for some functions. -/
def marksOf {α : Type} (fdes : List DwFde) : List (Marked α) :=
  fdes.flatMap fun fde => .start fde.initial :: .range fde.len (fde.initial + fde.len) ::
    (rowsOf fde).map fun r => .row r.start r.end_

end Spec
open Spec

variable {α : Type}

/-- The text of a marked line. -/
def Marked.render (line : String → α) : Marked α → α
  | .start a => line (" start_address: " ++ fmtAltHexPad 10 a.toNat)
  | .range len end_ => line ("    range_size: " ++ (fmtAltHexPad 10 len.toNat ++ (" (end_addr = " ++
      (fmtAltHexPad 10 end_.toNat ++ ")"))))
  | .row a end_ => line ("  - offset: " ++ (fmtAltHexPad 10 a.toNat ++ (" (end = " ++
      (fmtAltHexPad 10 end_.toNat ++ ")"))))
  | .other x => x

theorem Marked.says_render (line : String → α) (m : Marked α) : m.Says line (Marked.render line m) := by
  cases m with
  | start a => exact ⟨_, _, rfl, by rw [String.toList_append], C119_hex.2.2.2 _ _⟩
  | range len end_ =>
    refine ⟨_, _, _, rfl, ?_, C119_hex.2.2.2 10 _, C119_hex.2.2.2 10 _⟩
    simp only [String.toList_append, List.append_assoc]
  | row start end_ =>
    refine ⟨_, _, _, rfl, ?_, C119_hex.2.2.2 10 _, C119_hex.2.2.2 10 _⟩
    simp only [String.toList_append, List.append_assoc]
  | other x => rfl

theorem Marked.says_all (line : String → α) (ms : List (Marked α)) :
    DebugText.Matched (fun m e => m.Says line e) ms (ms.map (Marked.render line)) := by
  induction ms with
  | nil => trivial
  | cons m ms ih => exact ⟨says_render line m, ih⟩

/-- What the converter prints for a function. -/
def fdeMarks (g : GimliText) (arch : Architecture) (fde : DwFde) : List (Marked String) :=
  .other "FDE:" :: .start fde.initial :: .range fde.len (fde.initial + fde.len) ::
    ((reportCode g arch fde ++ ["", "Rows:"]).map .other ++
      (rowsOf fde).flatMap (fun r => .row r.start r.end_ :: ((reportRow g arch r).drop 1).map .other) ++ [.other ""])

theorem others_render (line : String → α) (xs : List α) :
    (xs.map Marked.other).map (Marked.render line) = xs := by
  induction xs with
  | nil => rfl
  | cons x xs ih => exact congrArg (x :: ·) ih

theorem others_by (d : U64) (xs : List α) : (xs.map Marked.other).map (Marked.by d) = xs.map .other := by
  induction xs with
  | nil => rfl
  | cons x xs ih => exact congrArg (_ :: ·) ih

theorem others_plain (xs : List α) : (xs.map Marked.other).filter Marked.addressed = [] := by
  induction xs with
  | nil => rfl
  | cons x xs ih => exact ih

theorem rows_plain {β : Type} (f : β → Marked α) (h : β → List α) (rs : List β) (hf : ∀ r, (f r).addressed = true) :
    (rs.flatMap fun r => f r :: (h r).map Marked.other).filter Marked.addressed = rs.map f := by
  induction rs with
  | nil => rfl
  | cons r rs ih =>
    rw [List.flatMap_cons, List.filter_append, ih, List.filter_cons_of_pos (hf r), others_plain]
    rfl

theorem fdeMarks_render (g : GimliText) (arch : Architecture) (fde : DwFde) :
    (fdeMarks g arch fde).map (Marked.render id) = reportFde g arch fde := by
  have hr : ∀ rs : List DwRow, (rs.flatMap fun r => Marked.row r.start r.end_ ::
      ((reportRow g arch r).drop 1).map Marked.other).map (Marked.render id) = rs.flatMap (reportRow g arch) := by
    intro rs
    induction rs with
    | nil => rfl
    | cons r rs ih =>
      rw [List.flatMap_cons, List.map_append, ih, List.map_cons, others_render]
      rfl
  unfold fdeMarks
  rw [List.map_cons, List.map_cons, List.map_cons, List.map_append, List.map_append, others_render, hr]
  simp [reportFde, reportHead, reportTop, Marked.render]

theorem fdeMarks_by (g : GimliText) (arch : Architecture) (d : U64) (fde : DwFde) :
    fdeMarks g arch (shiftFde d fde) = (fdeMarks g arch fde).map (Marked.by d) := by
  have hr : ∀ rs : List DwRow, ((rs.map (shiftRow d)).flatMap fun r => Marked.row r.start r.end_ ::
      ((reportRow g arch r).drop 1).map Marked.other) = (rs.flatMap fun r => Marked.row r.start r.end_ ::
      ((reportRow g arch r).drop 1).map Marked.other).map (Marked.by d) := by
    intro rs
    induction rs with
    | nil => rfl
    | cons r rs ih =>
      rw [List.map_cons, List.flatMap_cons, List.flatMap_cons, List.map_append, ih, List.map_cons, others_by]
      rfl
  have he : fde.initial + d + fde.len = fde.initial + fde.len + d := by
    rw [BitVec.add_assoc, BitVec.add_comm d, ← BitVec.add_assoc]
  unfold fdeMarks
  rw [rowsOf_shift, hr]
  simp only [List.map_append, List.map_cons, List.map_nil, others_by, Marked.by]
  rw [← he]
  rfl

theorem fdeMarks_marks (g : GimliText) (arch : Architecture) (fdes : List DwFde) :
    (fdes.flatMap (fdeMarks g arch)).filter Marked.addressed = marksOf fdes := by
  induction fdes with
  | nil => rfl
  | cons fde fdes ih =>
    rw [List.flatMap_cons, List.filter_append, ih]
    unfold marksOf
    rw [List.flatMap_cons]
    congr 1
    unfold fdeMarks
    rw [List.filter_cons_of_neg (by simp [Marked.addressed]), List.filter_cons_of_pos rfl,
      List.filter_cons_of_pos rfl, List.filter_append, List.filter_append, others_plain,
      rows_plain _ _ _ fun _ => rfl]
    simp [Marked.addressed]

/-- What the legacy converter prints for a function. -/
def fdeMarks1 (t : LegacyText) (a : ObjArch) (fde : DwFde) : List (Marked Event1) :=
  .other (.out "FDE:") :: .start fde.initial :: .range fde.len (fde.initial + fde.len) ::
    ((((legacyCode t fde).drop 3 ++ ["", "Rows:"]).map Event1.out).map .other ++
      (rowsOf fde).flatMap (fun r => .row r.start r.end_ :: ((legacyRowEvents t a r).drop 1).map .other) ++
      [.other (.out "")])

theorem fdeMarks1_render (t : LegacyText) (a : ObjArch) (fde : DwFde) :
    (fdeMarks1 t a fde).map (Marked.render .out) = legacyFdeEvents t a fde := by
  have hr : ∀ rs : List DwRow, (rs.flatMap fun r => Marked.row r.start r.end_ ::
      ((legacyRowEvents t a r).drop 1).map Marked.other).map (Marked.render .out) =
        rs.flatMap (legacyRowEvents t a) := by
    intro rs
    induction rs with
    | nil => rfl
    | cons r rs ih =>
      rw [List.flatMap_cons, List.map_append, ih, List.map_cons, others_render]
      rfl
  unfold fdeMarks1
  rw [List.map_cons, List.map_cons, List.map_cons, List.map_append, List.map_append, others_render, hr]
  simp [legacyFdeEvents, legacyCode, reportTop, Marked.render]

theorem fdeMarks1_by (t : LegacyText) (a : ObjArch) (d : U64) (fde : DwFde) :
    fdeMarks1 t a (shiftFde d fde) = (fdeMarks1 t a fde).map (Marked.by d) := by
  have hr : ∀ rs : List DwRow, ((rs.map (shiftRow d)).flatMap fun r => Marked.row r.start r.end_ ::
      ((legacyRowEvents t a r).drop 1).map Marked.other) = (rs.flatMap fun r => Marked.row r.start r.end_ ::
      ((legacyRowEvents t a r).drop 1).map Marked.other).map (Marked.by d) := by
    intro rs
    induction rs with
    | nil => rfl
    | cons r rs ih =>
      rw [List.map_cons, List.flatMap_cons, List.flatMap_cons, List.map_append, ih, List.map_cons, others_by]
      rfl
  have he : fde.initial + d + fde.len = fde.initial + fde.len + d := by
    rw [BitVec.add_assoc, BitVec.add_comm d, ← BitVec.add_assoc]
  unfold fdeMarks1
  rw [rowsOf_shift, hr]
  simp only [List.map_append, List.map_cons, List.map_nil, others_by, Marked.by]
  rw [← he]
  rfl

theorem fdeMarks1_marks (t : LegacyText) (a : ObjArch) (fdes : List DwFde) :
    (fdes.flatMap (fdeMarks1 t a)).filter Marked.addressed = marksOf fdes := by
  induction fdes with
  | nil => rfl
  | cons fde fdes ih =>
    rw [List.flatMap_cons, List.filter_append, ih]
    unfold marksOf
    rw [List.flatMap_cons]
    congr 1
    unfold fdeMarks1
    rw [List.filter_cons_of_neg (by simp [Marked.addressed]), List.filter_cons_of_pos rfl,
      List.filter_cons_of_pos rfl, List.filter_append, List.filter_append, others_plain,
      rows_plain _ _ _ fun _ => rfl]
    simp [Marked.addressed]

theorem flatMap_by {d : U64} {f : DwFde → List (Marked α)} (h : ∀ x, f (shiftFde d x) = (f x).map (Marked.by d))
    (fdes : List DwFde) : (fdes.map (shiftFde d)).flatMap f = (fdes.flatMap f).map (Marked.by d) := by
  induction fdes with
  | nil => rfl
  | cons x xs ih => rw [List.map_cons, List.flatMap_cons, List.flatMap_cons, List.map_append, ih, h]

theorem flatMap_render {β : Type} {line : String → α} {f : β → List (Marked α)} {g : β → List α}
    (h : ∀ x, (f x).map (Marked.render line) = g x) (xs : List β) :
    (xs.flatMap f).map (Marked.render line) = xs.flatMap g := by
  induction xs with
  | nil => rfl
  | cons x xs ih => rw [List.flatMap_cons, List.flatMap_cons, List.map_append, ih, h]

/-- The inputs of moved code. -/
theorem inputs_shift {eh : EhFrame} {bases : Bases} {d : U64} {fdes fdes' : List DwFde}
    (h : inputs eh bases = fdes.map .ok) (h' : inputs (mapFdes (shiftFde d) eh) bases = fdes'.map .ok) :
    fdes' = fdes.map (shiftFde d) := by
  rw [inputs_mapFdes, h, List.map_map] at h'
  refine (map_ok_inj (Eq.trans ?_ h')).symm
  rw [List.map_map]
  rfl

/-- **C135**, the debug dump: the lines with addresses are those of the functions and rows of the input, in
order; for moved code these addresses are moved, and nothing else on stdout changes. -/
theorem C135_dump (dbg : Bool) (g : GimliText) (eh : EhFrame) (opts : Options) (d : U64) {b : SFrameBuilder}
    (h : dwarf2sframe dbg eh opts = .ok (.ok b)) (hdump : opts.debugdump = true)
    (hd : ∀ fde, .ok fde ∈ inputs eh opts.bases → (fde.initial + d).toNat ≤ 2147483647) :
    ∃ (fdes : List DwFde) (ms : List (Marked String)), inputs eh opts.bases = fdes.map .ok ∧
      ms.filter Marked.addressed = marksOf fdes ∧
      DebugText.Matched (fun m s => m.Says id s) ms (stdoutOf (dwarf2sframeT dbg g eh opts).1) ∧
      DebugText.Matched (fun m s => m.Says id s) (ms.map (Marked.by d))
        (stdoutOf (dwarf2sframeT dbg g (mapFdes (shiftFde d) eh) opts).1) := by
  obtain ⟨b', hb', -, -⟩ := C82_moved dbg eh opts b d h hd
  obtain ⟨fdes, hin, hout, -⟩ := C91_success (g := g) h
  obtain ⟨fdes', hin', hout', -⟩ := C91_success (g := g) hb'
  cases inputs_shift hin hin'
  rw [if_pos hdump] at hout hout'
  refine ⟨fdes, fdes.flatMap (fdeMarks g opts.arch), hin, fdeMarks_marks g opts.arch fdes, ?_, ?_⟩
  · have := Marked.says_all id (fdes.flatMap (fdeMarks g opts.arch))
    rwa [flatMap_render (fdeMarks_render g opts.arch), ← report, ← hout] at this
  · have := Marked.says_all id ((fdes.flatMap (fdeMarks g opts.arch)).map (Marked.by d))
    rwa [← flatMap_by (fdeMarks_by g opts.arch d), flatMap_render (fdeMarks_render g opts.arch), ← report,
      ← hout', flatMap_by (fdeMarks_by g opts.arch d)] at this

/-- **C135**, the legacy converter, which always prints its dump: the same for all that it prints on stdout
and stderr. -/
theorem C135_legacy (dbg : Bool) (t : LegacyText) (a : ObjArch) (eh : EhFrame) (bases : Bases) (d : U64)
    {b : SFrameBuilder} (h : legacyConvert dbg eh bases = .ok (.ok b))
    (hd : ∀ fde, .ok fde ∈ inputs eh bases → (fde.initial + d).toNat ≤ 2147483647) :
    ∃ (fdes : List DwFde) (ms : List (Marked Event1)), inputs eh bases = fdes.map .ok ∧
      ms.filter Marked.addressed = marksOf fdes ∧
      DebugText.Matched (fun m e => m.Says .out e) ms (legacyConvertT dbg t a eh bases).1 ∧
      DebugText.Matched (fun m e => m.Says .out e) (ms.map (Marked.by d))
        (legacyConvertT dbg t a (mapFdes (shiftFde d) eh) bases).1 := by
  obtain ⟨b', hb', -⟩ := legacy_moved dbg dbg eh bases d h hd
  obtain ⟨fdes, hin, hout⟩ := C94_success (t := t) (a := a) h
  obtain ⟨fdes', hin', hout'⟩ := C94_success (t := t) (a := a) hb'
  cases inputs_shift hin hin'
  refine ⟨fdes, fdes.flatMap (fdeMarks1 t a), hin, fdeMarks1_marks t a fdes, ?_, ?_⟩
  · have := Marked.says_all Event1.out (fdes.flatMap (fdeMarks1 t a))
    rwa [flatMap_render (fdeMarks1_render t a), ← hout] at this
  · have := Marked.says_all Event1.out ((fdes.flatMap (fdeMarks1 t a)).map (Marked.by d))
    rwa [← flatMap_by (fdeMarks1_by t a d), flatMap_render (fdeMarks1_render t a),
      ← hout', flatMap_by (fdeMarks1_by t a d)] at this

/-- A sample function at 0x1000, and moved down to 0. -/
example (dbg : Bool) :
    (legacyConvertT dbg Samples.legacyText .x86_64
      (mapFdes (shiftFde (-0x1000)) (Samples.ehOf [Samples.fdeWith Samples.rbxRow])) Bases.default).1 =
    [.out "FDE:", .out " start_address: 0x00000000", .out "    range_size: 0x00000020 (end_addr = 0x00000020)",
      .out "  Instructions:", .out "", .out "Rows:", .out "  - offset: 0x00000000 (end = 0x00000001)",
      .out "    cfa:    RSP+8", .out "    reg:    RBP = <undefined>", .out "    reg:    RA = *(CFA-8)",
      .out "    sframe: FrameRowOffsets { cfa: 8, ra: Some(-8), fp: None }",
      .out "  - offset: 0x00000001 (end = 0x00000010)", .out "    cfa:    RSP+16", .out "    reg:    RBP = 3",
      .out "    reg:    RA = *(CFA-8)", .fpRule (.register 3),
      .out "    sframe: FrameRowOffsets { cfa: 16, ra: Some(-8), fp: None }", .out ""] ∧
    ((stdoutOf (dwarf2sframeT dbg Samples.names (mapFdes (shiftFde (-0x1000)) (Samples.ehOf [Samples.dwFde]))
      Samples.dumpOpts).1).take 3 = ["FDE:", " start_address: 0x00000000",
        "    range_size: 0x00000020 (end_addr = 0x00000020)"]) ∧
    (legacyConvert dbg (Samples.ehOf [Samples.fdeWith Samples.rbxRow]) Bases.default).bind
      (fun r => .ok r.toOption.isSome) = .ok true := by
  refine ⟨?_, ?_, ?_⟩ <;> cases dbg <;> decide +kernel

end Verif
