import Verif.Props.Alone2
import Verif.Props.Dwarfdump
/-!
# C139: the dump of a section is made of those of its entries
-/

namespace Verif
namespace Spec

/-- The same world, in which the section has a single entry. -/
def aloneIn (w : DumpWorld) (x : Except GErr DumpEntry) : DumpWorld :=
  { w with frame := fun data e size vendor => { w.frame data e size vendor with entries := fun _ => [x] } }

/-- The entries of the section as `dwarfdump` reads them, before their CIEs are looked up. -/
def rawEntries (w : DumpWorld) (file : ObjFile) (data : List U8) : List (Except GErr DumpEntry) :=
  (w.frame data file.endianness ((w.addressSize file.architecture).getD 8)
    (if file.architecture = .aarch64 then .aarch64 else .default)).entries (properBases file)

/-- A dump without its first line. -/
def afterTitle (r : List String × Rust (Except GErr Unit)) : List String × Rust (Except GErr Unit) := (r.1.drop 1, r.2)

end Spec
open Spec

section
variable (w : DumpWorld) (dbg : Bool) (name : Reg → Option String)

theorem body_stop {s : Spec.Shown} {ls : List String} {r : Rust (Except GErr Unit)}
    (h : w.body dbg name s = (ls, .stop r)) : r ≠ .ok (.ok ()) := by
  have he : ∀ x : Except GErr Unit, endingOf x = .stop r → r ≠ .ok (.ok ()) := by
    intro x hx
    cases x with
    | error e => cases hx; nofun
    | ok u => cases hx
  cases s with
  | cie c => exact he _ (congrArg Prod.snd h)
  | fde o l p f =>
    cases f with
    | error e => cases (congrArg Prod.snd h)
    | ok f =>
      rw [DumpWorld.body] at h
      split at h
      · cases (congrArg Prod.snd h)
        nofun
      · exact he _ (congrArg Prod.snd h)

theorem dumpList_inSequence (xs : List (Except GErr Spec.Shown)) :
    w.dumpList dbg name xs = inSequence (xs.map fun x => w.dumpList dbg name [x]) := by
  induction xs with
  | nil => rfl
  | cons x xs ih =>
    rw [List.map_cons]
    cases x with
    | error e => rfl
    | ok s =>
      generalize (xs.map fun x => w.dumpList dbg name [x]) = ys at ih ⊢
      unfold DumpWorld.dumpList
      cases h : w.body dbg name s with
      | mk ls e =>
        cases e with
        | next =>
          simp only [ih, DumpWorld.dumpList, inSequence, List.append_nil, List.cons_append]
        | blank =>
          simp only [ih, DumpWorld.dumpList, inSequence, List.cons_append, List.append_assoc, List.nil_append]
        | stop r =>
          have := body_stop w dbg name h
          simp only
          rcases r with (e | ⟨⟩) | p | _
          · rfl
          · exact absurd rfl this
          · rfl
          · rfl

theorem body_aloneIn (x : Except GErr DumpEntry) (s : Spec.Shown) :
    (aloneIn w x).body dbg name s = w.body dbg name s := by
  cases s with
  | cie c => rfl
  | fde o l p f => cases f <;> rfl

theorem dumpList_aloneIn (x : Except GErr DumpEntry) (xs : List (Except GErr Spec.Shown)) :
    (aloneIn w x).dumpList dbg name xs = w.dumpList dbg name xs := by
  induction xs with
  | nil => rfl
  | cons y ys ih =>
    cases y with
    | error e => rfl
    | ok s =>
      unfold DumpWorld.dumpList
      rw [body_aloneIn, ih]

end

/-- The dump of an entry alone. -/
theorem afterTitle_alone (w : DumpWorld) (dbg : Bool) (file : ObjFile) (data : List U8) (x : Except GErr DumpEntry) :
    afterTitle ((aloneIn w x).dumpEhFrame dbg file data) =
      w.dumpList dbg (w.archRegisterName file.architecture)
        [x.map (resolve (frameOf w file data) (properBases file))] := by
  unfold DumpWorld.dumpEhFrame
  simp only [C88_bases]
  rw [entryLines_eq _ dbg _ _ _ _ [] (fun o c h => by cases h), dumpList_aloneIn]
  cases x with
  | error e => rfl
  | ok e => cases e <;> rfl

/-- **C139.**  The dump of a section, and how it ends, is made of those of its entries, each alone with the same
CIEs, one after the other, up to the first that does not come to its end. -/
theorem C139_dump (w : DumpWorld) (dbg : Bool) (file : ObjFile) (data : List U8) :
    afterTitle (w.dumpEhFrame dbg file data) =
      inSequence ((rawEntries w file data).map fun x => afterTitle ((aloneIn w x).dumpEhFrame dbg file data)) ∧
    (w.dumpEhFrame dbg file data).1.head? = some "Exception handling frame information for section .eh_frame" := by
  refine ⟨?_, by rw [dumpEhFrame_eq]; rfl⟩
  simp only [afterTitle_alone]
  rw [dumpEhFrame_eq]
  show w.dumpList dbg (w.archRegisterName file.architecture) (entriesOf w file data) = _
  rw [dumpList_inSequence]
  unfold entriesOf rawEntries
  rw [List.map_map]
  rfl

/-- A CIE, an FDE with an expression that cannot be decoded, and another FDE, which is not dumped. -/
example (dbg : Bool) :
    let cie : Except GErr DumpEntry := .ok (.cie (Samples.dwCie [.ok (.defCfa 7 8)]))
    let bad : Except GErr DumpEntry := .ok (Samples.dwFdeEntry 0x1010 0x20 [.ok (.defCfaExpression [.error ⟨1⟩])])
    let good : Except GErr DumpEntry := .ok (Samples.dwFdeEntry 0x1030 0x20 [.ok (.advanceLoc 4)])
    let dump := fun es => afterTitle ((Samples.dwWorld .x86_64 (some []) es).dumpEhFrame dbg
      (Samples.dumpFile .x86_64 (some [])) [])
    dump [cie, bad, good] = ((dump [cie]).1 ++ (dump [bad]).1, .ok (.error ⟨1⟩)) ∧
    (dump [cie]).2 = .ok (.ok ()) ∧ (dump [bad]).2 = .ok (.error ⟨1⟩) ∧ (dump [good]).2 = .ok (.ok ()) ∧
    5 ≤ (dump [bad]).1.length := by
  cases dbg <;> decide +kernel

end Verif
