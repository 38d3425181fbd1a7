import Verif.Props.Alone3
/-!
# C141: entries that are appended to a section
-/

namespace Verif
namespace Spec

/-- A section with these entries, and the CIEs of another (the entries of lib.rs:187 and main.rs:81). -/
def holding (eh : EhFrame) (xs : List (Except GErr Entry)) : EhFrame := { eh with entries := fun _ => xs }

/-- A world in which the section has these entries, and the CIEs it has in another (dwarfdump.rs:176). -/
def holdingIn (w : DumpWorld) (xs : List (Except GErr DumpEntry)) : DumpWorld :=
  { w with frame := fun data e size vendor => { w.frame data e size vendor with entries := fun _ => xs } }

/-- What it means that the run `all` is the run `first` continued by `second`: if `first` succeeds, both are printed and
`all` ends as `second` does; if not, `all` is `first`. -/
def Continues {ω ε : Type} (all first second : List ω × Rust (Except ε Unit)) : Prop :=
  (first.2 = .ok (.ok ()) → all = (first.1 ++ second.1, second.2)) ∧ (first.2 ≠ .ok (.ok ()) → all = first)

end Spec
open Spec

theorem inSequence_append {ω ε : Type} (rs ss : List (List ω × Rust (Except ε Unit))) :
    Continues (inSequence (rs ++ ss)) (inSequence rs) (inSequence ss) := by
  induction rs with
  | nil => exact ⟨fun _ => rfl, fun h => absurd rfl h⟩
  | cons r rs ih =>
    obtain ⟨out, (e | u) | p | _⟩ := r
    · exact ⟨fun h => (nomatch h), fun _ => rfl⟩
    · refine ⟨fun h => ?_, fun h => ?_⟩
      · show (out ++ (inSequence (rs ++ ss)).1, (inSequence (rs ++ ss)).2) = _
        rw [ih.1 h]
        show _ = ((out ++ (inSequence rs).1) ++ _, _)
        rw [List.append_assoc]
      · show (out ++ (inSequence (rs ++ ss)).1, (inSequence (rs ++ ss)).2) = _
        rw [ih.2 h]
        rfl
    · exact ⟨fun h => (nomatch h), fun _ => rfl⟩
    · exact ⟨fun h => (nomatch h), fun _ => rfl⟩

/-- **C141.**  The run on a section of which the entries are those of two others, one after the other: it is the run on
the first, continued by that on the second. -/
theorem C141_run (dbg : Bool) (g : GimliText) (eh : EhFrame) (opts : Options) (xs ys : List (Except GErr Entry)) :
    Continues (ended (dwarf2sframeT dbg g (holding eh (xs ++ ys)) opts))
      (ended (dwarf2sframeT dbg g (holding eh xs) opts)) (ended (dwarf2sframeT dbg g (holding eh ys) opts)) := by
  have h : ∀ zs, ended (dwarf2sframeT dbg g (holding eh zs) opts) =
      inSequence (zs.map fun x => ended (dwarf2sframeT dbg g (alone eh x) opts)) :=
    fun zs => C138_run dbg g (holding eh zs) opts
  rw [h, h, h, List.map_append]
  exact inSequence_append _ _

/-- **C141**, the legacy converter. -/
theorem C141_legacy (dbg : Bool) (t : LegacyText) (a : ObjArch) (eh : EhFrame) (bases : Bases)
    (xs ys : List (Except GErr Entry)) :
    Continues (ended (legacyConvertT dbg t a (holding eh (xs ++ ys)) bases))
      (ended (legacyConvertT dbg t a (holding eh xs) bases)) (ended (legacyConvertT dbg t a (holding eh ys) bases)) := by
  have h : ∀ zs, ended (legacyConvertT dbg t a (holding eh zs) bases) =
      inSequence (zs.map fun x => ended (legacyConvertT dbg t a (alone eh x) bases)) :=
    fun zs => C138_legacy dbg t a (holding eh zs) bases
  rw [h, h, h, List.map_append]
  exact inSequence_append _ _

/-- **C141**, `dwarfdump`. -/
theorem C141_dump (w : DumpWorld) (dbg : Bool) (file : ObjFile) (data : List U8)
    (xs ys : List (Except GErr DumpEntry)) :
    Continues (afterTitle ((holdingIn w (xs ++ ys)).dumpEhFrame dbg file data))
      (afterTitle ((holdingIn w xs).dumpEhFrame dbg file data))
      (afterTitle ((holdingIn w ys).dumpEhFrame dbg file data)) := by
  have h : ∀ zs, afterTitle ((holdingIn w zs).dumpEhFrame dbg file data) =
      inSequence (zs.map fun x => afterTitle ((aloneIn w x).dumpEhFrame dbg file data)) :=
    fun zs => (C139_dump (holdingIn w zs) dbg file data).1
  rw [h, h, h, List.map_append]
  exact inSequence_append _ _

/-- Two functions and then two more, of which the first has a row that is too far away: with these appended the dump
of the first two is continued; with the order reversed they are not reached. -/
example (dbg : Bool) :
    let f : U64 → U64 → DwFde := fun a r => { Samples.dwFde with
      initial := a, rows := .ok [.ok { Samples.dwRow3 with start := r, end_ := r + 1 }] }
    let good := [f 0x1000 0x1000, f 0x2000 0x2000]
    let bad := [f 0x3000 0x100003000, f 0x5000 0x5000]
    let run := fun fdes => ended (dwarf2sframeT dbg Samples.names (Samples.ehOf fdes)
      { Samples.convOpts with debugdump := true, warnings := true })
    (run good).2 = .ok (.ok ()) ∧
    run (good ++ bad) = ((run good).1 ++ (run bad).1, .ok (.error (.invalidRowOffset 0x100003000 0x100000000))) ∧
    run (bad ++ good) = run bad ∧ 6 ≤ (run good).1.length ∧ 3 ≤ (run bad).1.length := by
  cases dbg <;> decide +kernel

/-- The same with the legacy tool. -/
example (dbg : Bool) :
    let f : U64 → U64 → DwFde := fun a r => { Samples.dwFde with
      initial := a, rows := .ok [.ok { Samples.dwRow3 with start := r, end_ := r + 1 }] }
    let good := [f 0x1000 0x1000, f 0x2000 0x2000]
    let bad := [f 0x3000 0x100003000, f 0x5000 0x5000]
    let run := fun fdes => ended (legacyConvertT dbg Samples.legacyText .x86_64 (Samples.ehOf fdes) Bases.default)
    (run good).2 = .ok (.ok ()) ∧
    run (good ++ bad) = ((run good).1 ++ (run bad).1, .ok (.error .rowOffset)) ∧
    run (bad ++ good) = run bad ∧ 6 ≤ (run good).1.length ∧ 3 ≤ (run bad).1.length := by
  cases dbg <;> decide +kernel

/-- The same with `dwarfdump`, for an expression that cannot be decoded. -/
example (dbg : Bool) :
    let cie : Except GErr DumpEntry := .ok (.cie (Samples.dwCie [.ok (.defCfa 7 8)]))
    let f : Except GErr DumpEntry := .ok (Samples.dwFdeEntry 0x1030 0x20 [.ok (.advanceLoc 4)])
    let bad : Except GErr DumpEntry := .ok (Samples.dwFdeEntry 0x1010 0x20 [.ok (.defCfaExpression [.error ⟨1⟩])])
    let dump := fun es => afterTitle ((Samples.dwWorld .x86_64 (some []) es).dumpEhFrame dbg
      (Samples.dumpFile .x86_64 (some [])) [])
    (dump [cie, f]).2 = .ok (.ok ()) ∧
    dump [cie, f, cie, bad] = ((dump [cie, f]).1 ++ (dump [cie, bad]).1, .ok (.error ⟨1⟩)) ∧
    dump [cie, bad, cie, f] = dump [cie, bad] ∧ 8 ≤ (dump [cie, f]).1.length := by
  cases dbg <;> decide +kernel

end Verif
