import Verif.Props.Messages
import Verif.Props.Moving
import Verif.Props.Report
/-!
# C134: the warnings for moved code

What the converter prints for moved code is what it prints for the code, up to the addresses of the
functions.
-/

namespace Verif
namespace Spec

/-- Two lines of warnings that agree but for the address of the function, which is `d` higher in the
second. -/
def WarnMoved (d : Int) (s t : List Char) : Prop :=
  ∃ (x y rest : List Char) (n m : Nat),
    s = "warning: FDE for ".toList ++ x ++ '+' :: rest ∧ t = "warning: FDE for ".toList ++ y ++ '+' :: rest ∧
    Numeral.readHex x = some n ∧ Numeral.readHex y = some m ∧ (m : Int) = n + d

end Spec
open Spec

theorem warnings_matched {α β : Type} {R : β → β → Prop} {f g : α → β} :
    ∀ {l : List α}, (∀ x ∈ l, R (f x) (g x)) → DebugText.Matched R (l.map f) (l.map g)
  | [], _ => trivial
  | _ :: _, h => ⟨h _ List.mem_cons_self, warnings_matched fun x hx => h x (List.mem_cons_of_mem _ hx)⟩

/-- The warnings for moved functions. -/
theorem warningsOf_shift (opts : Options) (d : U64) (fdes : List DwFde) :
    warningsOf opts (fdes.map (shiftFde d)) =
      (warningsOf opts fdes).map fun w => { w with start := w.start + d } := by
  unfold warningsOf
  rw [List.flatMap_map, List.map_flatMap]
  congr 1
  funext fde
  rw [rowsOf_shift, List.flatMap_map, List.map_flatMap]
  congr 1
  funext r
  have hs : (shiftRow d r).start = (shiftRow d r).end_ ↔ r.start = r.end_ := by
    unfold shiftRow
    simp
  have hc : complaint opts.arch (shiftRow d r) = complaint opts.arch r := rfl
  unfold rowWarning
  simp only [ne_eq, hs, hc]
  split
  · cases complaint opts.arch r with
    | none => rfl
    | some msg =>
      have : r.start + d - (fde.initial + d) = r.start - fde.initial := by
        apply BitVec.eq_of_toNat_eq
        simp only [BitVec.toNat_sub, BitVec.toNat_add]
        have := fde.initial.isLt
        have := r.start.isLt
        have := d.isLt
        omega
      simp [shiftRow, shiftFde, this]
  · rfl

/-- A warning is about one of the functions. -/
theorem warningsOf_start {opts : Options} {fdes : List DwFde} {w : Warning} (h : w ∈ warningsOf opts fdes) :
    ∃ fde ∈ fdes, w.start = fde.initial := by
  unfold warningsOf at h
  obtain ⟨fde, hf, h⟩ := List.mem_flatMap.1 h
  obtain ⟨r, _, h⟩ := List.mem_flatMap.1 h
  refine ⟨fde, hf, ?_⟩
  unfold rowWarning at h
  split at h
  · cases hc : complaint opts.arch r with
    | none => rw [hc] at h; cases h
    | some msg =>
      rw [hc] at h
      simp only [Option.map_some, Option.toList_some, List.mem_singleton] at h
      rw [h]
  · cases h

/-- The line of a warning around the address of the function. -/
theorem warning_line (g : GimliText) (arch : Architecture) (w : Warning) :
    (w.text g arch).toList = "warning: FDE for ".toList ++ (fmtAltHexPad 10 w.start.toNat).toList ++
      '+' :: (fmtAltHexPad w.digits w.offset.toNat ++ ": " ++ w.msg.text g arch).toList := by
  unfold Warning.text
  generalize fmtAltHexPad 10 w.start.toNat = x
  generalize fmtAltHexPad w.digits w.offset.toNat = y
  generalize w.msg.text g arch = z
  have : "+".toList = ['+'] := rfl
  simp only [String.toList_append, this, List.append_assoc, List.cons_append, List.nil_append]

/-- **C134.**  If all functions are moved by the same distance, to addresses that SFrame can express, then
the lines of warnings are as many as before and in the same order, and they differ in the addresses of the
functions only, which are those of the moved functions.  Without the debug dump nothing is printed on
stdout, before or after. -/
theorem C134_warnings (dbg : Bool) (g : GimliText) (eh : EhFrame) (opts : Options) (d : U64) {b : SFrameBuilder}
    (h : dwarf2sframe dbg eh opts = .ok (.ok b))
    (hd : ∀ fde, .ok fde ∈ inputs eh opts.bases → (fde.initial + d).toNat ≤ 2147483647) :
    DebugText.Matched (WarnMoved d.toInt)
      ((stderrOf (dwarf2sframeT dbg g eh opts).1).map fun w => (w.text g opts.arch).toList)
      ((stderrOf (dwarf2sframeT dbg g (mapFdes (shiftFde d) eh) opts).1).map fun w => (w.text g opts.arch).toList) ∧
    (opts.debugdump = false → stdoutOf (dwarf2sframeT dbg g eh opts).1 = [] ∧
      stdoutOf (dwarf2sframeT dbg g (mapFdes (shiftFde d) eh) opts).1 = []) := by
  obtain ⟨b', hb', -, -⟩ := C82_moved dbg eh opts b d h hd
  obtain ⟨fdes, hin, hout, herr⟩ := C91_success (g := g) h
  obtain ⟨fdes', hin', hout', herr'⟩ := C91_success (g := g) hb'
  have hf : fdes' = fdes.map (shiftFde d) := by
    rw [inputs_mapFdes, hin, List.map_map] at hin'
    refine (map_ok_inj (Eq.trans ?_ hin')).symm
    rw [List.map_map]
    rfl
  subst hf
  refine ⟨?_, fun hn => ?_⟩
  · rw [herr, herr', warningsOf_shift, List.map_map]
    refine warnings_matched fun w hw => ?_
    obtain ⟨fde, hm, hs⟩ := warningsOf_start hw
    obtain ⟨fdes₂, hin₂, hc, -⟩ := dwarf2sframe_ok_iff.1 h
    rw [hin] at hin₂
    cases map_ok_inj hin₂
    have hn := moved_number (hc fde hm).start (hd fde (by rw [hin]; exact List.mem_map_of_mem hm))
    refine ⟨(fmtAltHexPad 10 w.start.toNat).toList, (fmtAltHexPad 10 (w.start + d).toNat).toList,
      (fmtAltHexPad w.digits w.offset.toNat ++ ": " ++ w.msg.text g opts.arch).toList, w.start.toNat,
      (w.start + d).toNat, ?_, ?_, C119_hex.2.2.2 _ _, C119_hex.2.2.2 _ _, by rw [hs]; exact hn⟩
    · exact warning_line g opts.arch w
    · exact warning_line g opts.arch { w with start := w.start + d }
  · rw [hout, hout']
    simp [hn]

/-- The warning for the sample function, and for the function moved down by 0x1000. -/
example (dbg : Bool) :
    (stderrOf (dwarf2sframeT dbg Samples.names (Samples.ehOf [Samples.dwFde]) Samples.dumpOpts).1).map
      (Warning.text Samples.names .amd64) =
        ["warning: FDE for 0x00001000+0x10: CFA recovery rule requires evaluating a DWARF expression"] ∧
    (stderrOf (dwarf2sframeT dbg Samples.names (mapFdes (shiftFde (-0x1000)) (Samples.ehOf [Samples.dwFde]))
      Samples.dumpOpts).1).map (Warning.text Samples.names .amd64) =
        ["warning: FDE for 0x00000000+0x10: CFA recovery rule requires evaluating a DWARF expression"] ∧
    (∃ b, dwarf2sframe dbg (Samples.ehOf [Samples.dwFde]) Samples.dumpOpts = .ok (.ok b)) ∧
    ∀ fde, .ok fde ∈ inputs (Samples.ehOf [Samples.dwFde]) Samples.dumpOpts.bases →
      (fde.initial + (-0x1000)).toNat ≤ 2147483647 := by
  refine ⟨by cases dbg <;> decide +kernel, by cases dbg <;> decide +kernel,
    ⟨{ options := Samples.opts, fdes := [(0x1000, Samples.convFn)] }, by cases dbg <;> decide +kernel⟩, ?_⟩
  intro fde hf
  rw [show inputs (Samples.ehOf [Samples.dwFde]) Samples.dumpOpts.bases = [.ok Samples.dwFde] from rfl] at hf
  cases List.mem_singleton.1 hf
  decide +kernel

end Verif
