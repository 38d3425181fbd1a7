import Verif.Props.Alone3
/-!
# C140: the dump of moved code
-/

namespace Verif
namespace Spec

/-- An entry of code that is moved by `d`: its initial address (dwarfdump.rs:243-249) is another; the instructions, also
the operand of a `DW_CFA_set_loc`, stay. -/
def moveEntry (d : U64) : Except GErr DumpEntry → Except GErr DumpEntry
  | .ok (.fde o l p parse) => .ok (.fde o l p fun c => (parse c).map fun f => { f with initial := f.initial + d })
  | x => x

/-- The world in which all code is moved by `d`; the entries are those of dwarfdump.rs:176. -/
def movedWorld (d : U64) (w : DumpWorld) : DumpWorld :=
  { w with frame := fun data e size vendor => { w.frame data e size vendor with
      entries := fun bases => ((w.frame data e size vendor).entries bases).map (moveEntry d) } }

/-- The function of an entry, if it is an FDE that can be parsed (dwarfdump.rs:229-241). -/
def functionOf (frame : DumpFrame) (bases : Bases) : Except GErr DumpEntry → Option DumpFde
  | .ok (.fde _ _ p parse) => (parse (frame.cieFromOffset bases p)).toOption
  | _ => none

/-- The dump of an entry with the fifth and the sixth line, which show where the function starts and ends, as they
are after the move (dwarfdump.rs:243-249). -/
def withAddresses (d : U64) (f : Option DumpFde) (r : List String × Rust (Except GErr Unit)) :
    List String × Rust (Except GErr Unit) :=
  match f with
  | none => r
  | some f => ((r.1.set 4 ("    start_addr: " ++ fmtAltHexPad 18 (f.initial + d).toNat)).set 5
      ("    range_size: " ++ fmtAltHexPad 18 f.len.toNat ++ " (end_addr = " ++
        fmtAltHexPad 18 (f.initial + d + f.len).toNat ++ ")"), r.2)

end Spec
open Spec

section
variable (w : DumpWorld) (dbg : Bool) (name : Reg → Option String)

theorem dumpList_fde (o l p : U64) (f : DumpFde) (h : dbg = true → f.initial.toNat + f.len.toNat < 2 ^ 64) :
    w.dumpList dbg name [.ok (.fde o l p (.ok f))] =
      ("" :: (fmtAltHexPad 10 o.toNat ++ ": FDE") :: ("        length: " ++ fmtAltHexPad 10 l.toNat) ::
        ("   CIE_pointer: " ++ fmtAltHexPad 10 p.toNat) ::
        ("    start_addr: " ++ fmtAltHexPad 18 f.initial.toNat) ::
        ("    range_size: " ++ fmtAltHexPad 18 f.len.toNat ++ " (end_addr = " ++
          fmtAltHexPad 18 (f.initial + f.len).toNat ++ ")") ::
        ((f.lsda.map fun p => "          lsda: " ++ p.text).toList ++ (w.cfiLines name false f.instructions).1 ++
          (match (w.cfiLines name false f.instructions).2 with
            | .ok () => [""]
            | .error _ => [])),
       match (w.cfiLines name false f.instructions).2 with
        | .ok () => .ok (.ok ())
        | .error e => .ok (.error e)) := by
  have hn : ¬ (dbg = true ∧ 2 ^ 64 ≤ f.initial.toNat + f.len.toNat) := by
    rintro ⟨h1, h2⟩
    have := h h1
    omega
  rw [DumpWorld.dumpList, DumpWorld.body, if_neg hn]
  unfold DumpWorld.fdeBody fdeHead
  cases (w.cfiLines name false f.instructions).2 with
  | ok u => simp [endingOf, DumpWorld.dumpList]
  | error e => simp [endingOf]

/-- One entry. -/
theorem dumpList_moved (frame : DumpFrame) (bases : Bases) (d : U64) (x : Except GErr DumpEntry)
    (h : dbg = true → ∀ f, functionOf frame bases x = some f →
      f.initial.toNat + f.len.toNat < 2 ^ 64 ∧ (f.initial + d).toNat + f.len.toNat < 2 ^ 64) :
    w.dumpList dbg name [(moveEntry d x).map (resolve frame bases)] =
      withAddresses d (functionOf frame bases x) (w.dumpList dbg name [x.map (resolve frame bases)]) := by
  cases x with
  | error e => rfl
  | ok x =>
    cases x with
    | cie c => rfl
    | fde o l p parse =>
      simp only [functionOf, moveEntry, Except.map, resolve] at h ⊢
      cases hp : parse (frame.cieFromOffset bases p) with
      | error e => rfl
      | ok f =>
        rw [hp] at h
        have h1 := fun hd => (h hd f rfl).1
        have h2 := fun hd => (h hd f rfl).2
        simp only
        rw [dumpList_fde w dbg name o l p f h1, dumpList_fde w dbg name o l p { f with initial := f.initial + d } h2]
        rfl

end

/-- **C140.**  If code is moved, the dump of each entry is the one it had, but for the two lines of an FDE that
show the start and the end of its function; and the dump of the section is made of these. -/
theorem C140_dump (w : DumpWorld) (dbg : Bool) (file : ObjFile) (data : List U8) (d : U64)
    (h : dbg = true → ∀ x ∈ rawEntries w file data, ∀ f,
      functionOf (frameOf w file data) (properBases file) x = some f →
      f.initial.toNat + f.len.toNat < 2 ^ 64 ∧ (f.initial + d).toNat + f.len.toNat < 2 ^ 64) :
    afterTitle ((movedWorld d w).dumpEhFrame dbg file data) =
      inSequence ((rawEntries w file data).map fun x =>
        withAddresses d (functionOf (frameOf w file data) (properBases file) x)
          (afterTitle ((aloneIn w x).dumpEhFrame dbg file data))) := by
  rw [(C139_dump _ _ _ _).1]
  rw [show rawEntries (movedWorld d w) file data = (rawEntries w file data).map (moveEntry d) from rfl, List.map_map]
  congr 1
  refine List.map_congr_left fun x hx => ?_
  show afterTitle ((aloneIn (movedWorld d w) (moveEntry d x)).dumpEhFrame dbg file data) = _
  rw [show aloneIn (movedWorld d w) (moveEntry d x) = aloneIn w (moveEntry d x) from rfl, afterTitle_alone,
    afterTitle_alone]
  exact dumpList_moved w dbg _ _ _ d x fun hd => h hd x hx

/-- A CIE, two FDEs and one that cannot be decoded, moved by 0x100: the fifth and the sixth line of each FDE are
others, which are those of the function at the new place. -/
example (dbg : Bool) :
    let cie : Except GErr DumpEntry := .ok (.cie (Samples.dwCie [.ok (.defCfa 7 8)]))
    let f1 : Except GErr DumpEntry := .ok (Samples.dwFdeEntry 0x1010 0x20 [.ok (.advanceLoc 4)])
    let f2 : Except GErr DumpEntry := .ok (Samples.dwFdeEntry 0x1030 0x20 [.ok (.defCfaExpression [.error ⟨1⟩])])
    let w := Samples.dwWorld .x86_64 (some []) [cie, f1, f2]
    let file := Samples.dumpFile .x86_64 (some [])
    let d1 := afterTitle ((Samples.dwWorld .x86_64 (some []) [f1]).dumpEhFrame dbg file [])
    let m1 := afterTitle ((movedWorld 0x100 (Samples.dwWorld .x86_64 (some []) [f1])).dumpEhFrame dbg file [])
    d1.1[4]? = some "    start_addr: 0x0000000000001010" ∧ m1.1[4]? = some "    start_addr: 0x0000000000001110" ∧
    d1.1[5]? = some "    range_size: 0x0000000000000020 (end_addr = 0x0000000000001030)" ∧
    m1.1[5]? = some "    range_size: 0x0000000000000020 (end_addr = 0x0000000000001130)" ∧
    d1.1.take 4 = m1.1.take 4 ∧ d1.1.drop 6 = m1.1.drop 6 ∧ d1.2 = m1.2 ∧ 8 ≤ d1.1.length ∧
    (afterTitle ((movedWorld 0x100 w).dumpEhFrame dbg file [])).2 = .ok (.error ⟨1⟩) ∧
    (afterTitle ((movedWorld 0x100 w).dumpEhFrame dbg file [])).1 ≠ (afterTitle (w.dumpEhFrame dbg file [])).1 := by
  cases dbg <;> decide +kernel

/-- The range that is assumed of debug builds is needed: the end of this function wraps around once it is moved. -/
example :
    let w := Samples.dwWorld .x86_64 (some []) [.ok (Samples.dwFdeEntry 0x1010 0x20 [.ok (.advanceLoc 4)])]
    let file := Samples.dumpFile .x86_64 (some [])
    (w.dumpEhFrame true file []).2 = .ok (.ok ()) ∧
    ((movedWorld (0 - 0x1020) w).dumpEhFrame true file []).2 = .panic .overflow ∧
    ((movedWorld (0 - 0x1020) w).dumpEhFrame false file []).2 = .ok (.ok ()) := by
  decide +kernel

end Verif
