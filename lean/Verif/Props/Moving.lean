import Verif.Props.Convert4
import Verif.Props.Main1
import Verif.Props.Probes
import Verif.Spec.Image
/-!
# C131: code that is moved unwinds as before
-/

namespace Verif
namespace Spec

/-- A number that is an `i32`. -/
def InI32 (x : Int) : Prop := -2147483648 ≤ x ∧ x ≤ 2147483647

/-- The rules that a program finds for an address with the two lookups of the reader: the function
first, then its row. -/
def foundRules (alg : SearchAlg) (dbg : Bool) (o : Endian) (bytes : List U8) (a : I32) :
    Rust (Except ReadError (Option RowReading)) :=
  (SFrame.load o bytes).bind fun
  | .error e => .ok (.error e)
  | .ok s => (s.fdeForAddress alg dbg a).bind fun
    | none => .ok (.ok none)
    | some e => (e.getFreForAddress dbg a).bind fun r =>
      .ok (r.map (·.map fun r =>
        { start := r.startAddressOffset, base := r.baseReg, mangled := r.mangled,
          cfa := r.cfaOffset, ra := r.raOffset s, fp := r.fpOffset s }))

end Spec
open Spec

variable {o : Endian}

/-! ### Numbers -/

theorem toInt_moved {x : I32} {d : Int} (h : InI32 (x.toInt + d)) :
    (x + BitVec.ofInt 32 d).toInt = x.toInt + d := by
  unfold InI32 at h
  rw [BitVec.toInt_add, BitVec.toInt_ofInt]
  simp only [Int.bmod_def] at *
  omega

theorem eq_moved {a a' : I32} {d : Int} (h : a'.toInt = a.toInt + d) : a' = a + BitVec.ofInt 32 d := by
  apply BitVec.eq_of_toInt_eq
  have h1 := a'.toInt_lt
  have h2 := a'.le_toInt
  rw [toInt_moved ⟨by omega, by omega⟩, h]

theorem subI32_moved (dbg : Bool) {a a' x : I32} {d : Int} (ha : a'.toInt = a.toInt + d)
    (hx : InI32 (x.toInt + d)) :
    subI32 dbg a' (x + BitVec.ofInt 32 d) = subI32 dbg a x := by
  unfold subI32
  rw [toInt_moved hx, ha, show a.toInt + d - (x.toInt + d) = a.toInt - x.toInt by omega, eq_moved ha,
    show a + BitVec.ofInt 32 d - (x + BitVec.ofInt 32 d) = a - x by bv_omega]

/-! ### Moved sections -/

def Fde.moved (d : Int) : Fde → Fde
  | .v1 f => .v1 { f with startAddress := f.startAddress + BitVec.ofInt 32 d }
  | .v2 f => .v2 { f with startAddress := f.startAddress + BitVec.ofInt 32 d }

def FuncDescEntry.moved (d : Int) (e : FuncDescEntry o) : FuncDescEntry o :=
  { e with fde := e.fde.moved d }
def FrameRowEntry.moved (d : Int) (r : FrameRowEntry o) : FrameRowEntry o :=
  { r with fde := r.fde.moved d }
def FrameRowIter.moved (d : Int) (it : FrameRowIter o) : FrameRowIter o :=
  { it with fde := it.fde.moved d }

namespace Fde
variable (d : Int) (f : Fde)

theorem moved_startAddress : (f.moved d).startAddress = f.startAddress + BitVec.ofInt 32 d := by
  cases f <;> rfl
theorem moved_size : (f.moved d).size = f.size := by cases f <;> rfl
theorem moved_startFreOff : (f.moved d).startFreOff = f.startFreOff := by cases f <;> rfl
theorem moved_numFres : (f.moved d).numFres = f.numFres := by cases f <;> rfl
theorem moved_repSize : (f.moved d).repSize = f.repSize := by cases f <;> rfl
theorem moved_info : (f.moved d).info = f.info := by cases f <;> rfl
theorem moved_fdetype : (f.moved d).fdetype = f.fdetype := by cases f <;> rfl

end Fde

theorem load_moved (d : Int) (fde : Fde) (fres : List U8) :
    FrameRowEntry.load o (fde.moved d) fres = (FrameRowEntry.load o fde fres).bind fun x =>
      .ok (x.map fun p => (p.1.moved d, p.2)) := by
  unfold FrameRowEntry.load
  rw [fde.moved_info, fde.moved_size]
  cases FdeInfo.fretype fde.info <;> dsimp only
  case addr1 | addr2 | addr4 =>
    split
    · rfl
    · split
      · rfl
      · split
        · rfl
        · split <;> rfl
  all_goals rfl

namespace FrameRowIter

theorem next_moved (d : Int) (it : FrameRowIter o) :
    (it.moved d).next = it.next.bind fun p =>
      .ok (p.1.map (·.map (FrameRowEntry.moved d)), p.2.moved d) := by
  unfold next
  show (if (it.fde.moved d).numFres.toNat ≤ it.index.toNat then _ else
    (FrameRowEntry.load o (it.fde.moved d) it.fres).bind _) = _
  rw [it.fde.moved_numFres, load_moved]
  split
  · rfl
  · cases FrameRowEntry.load o it.fde it.fres with
    | panic p => rfl
    | diverge => rfl
    | ok x => cases x <;> rfl

theorem scanFuel_moved (d : Int) {p : FrameRowEntry o → Bool} (hp : ∀ r, p (r.moved d) = p r) :
    ∀ (n : Nat) (it : FrameRowIter o),
    scanFuel p n (it.moved d) = (scanFuel p n it).bind fun x =>
      .ok (x.map (·.map (FrameRowEntry.moved d)))
  | n, it => by
    rw [scanFuel.eq_def p n (it.moved d), scanFuel.eq_def p n it]
    dsimp only
    rw [next_moved]
    cases it.next with
    | panic p => rfl
    | diverge => rfl
    | ok x =>
      obtain ⟨x, it'⟩ := x
      rcases x with _ | e | r
      · rfl
      · rfl
      · simp only [Rust.bind, Option.map, Except.map, hp]
        split
        · rfl
        · cases n with
          | zero => rfl
          | succ n =>
            have ih := scanFuel_moved d hp n it'
            simp only [Rust.bind, Option.map, Except.map] at ih ⊢
            rw [ih]

theorem scan_moved (d : Int) {p : FrameRowEntry o → Bool} (hp : ∀ r, p (r.moved d) = p r)
    (it : FrameRowIter o) :
    (it.moved d).scan p = (it.scan p).bind fun x =>
      .ok (x.map (·.map (FrameRowEntry.moved d))) := by
  unfold scan
  show scanFuel p (it.fde.moved d).numFres.toNat (it.moved d) = _
  rw [it.fde.moved_numFres]
  exact scanFuel_moved d hp _ it

end FrameRowIter

/-- **C131**, a function: it contains the moved address if it contained the address. -/
theorem C131_contains (dbg : Bool) (e : FuncDescEntry o) {d : Int} {a a' : I32}
    (ha : a'.toInt = a.toInt + d) (hd : InI32 (e.startAddress.toInt + d)) :
    (e.moved d).contains dbg a' = e.contains dbg a := by
  have h1 : (e.moved d).startAddress = e.startAddress + BitVec.ofInt 32 d := e.fde.moved_startAddress d
  have h2 : (e.moved d).size = e.size := e.fde.moved_size d
  unfold FuncDescEntry.contains
  dsimp only
  rw [h1, h2, subI32_moved dbg ha hd, toInt_moved hd, ha]
  by_cases h : a.toInt < e.startAddress.toInt
  · rw [if_pos h, if_pos (by omega)]
  · rw [if_neg h, if_neg (by omega)]

/-- **C131**, the row of a function: the row found for the moved address is the one that was found for
the address. -/
theorem C131_row (dbg : Bool) (e : FuncDescEntry o) {d : Int} {a a' : I32}
    (ha : a'.toInt = a.toInt + d) (hd : InI32 (e.startAddress.toInt + d)) :
    (e.moved d).getFreForAddress dbg a' = (e.getFreForAddress dbg a).bind fun x =>
      .ok (x.map (·.map (FrameRowEntry.moved d))) := by
  have h1 : (e.moved d).startAddress = e.startAddress + BitVec.ofInt 32 d := e.fde.moved_startAddress d
  have h2 : (e.moved d).size = e.size := e.fde.moved_size d
  have h3 : (e.moved d).fdetype = e.fdetype := e.fde.moved_fdetype d
  have h4 : (e.moved d).repBlockSize = e.repBlockSize := e.fde.moved_repSize d
  have h5 : (e.moved d).iter = e.iter.moved d := rfl
  unfold FuncDescEntry.getFreForAddress
  rw [h1, h2, h3, h4, h5, subI32_moved dbg ha hd, toInt_moved hd, ha]
  by_cases h : a.toInt < e.startAddress.toInt
  · rw [if_pos h, if_pos (by omega)]; rfl
  · rw [if_neg h, if_neg (by omega)]
    cases subI32 dbg a e.startAddress with
    | panic p => rfl
    | diverge => rfl
    | ok rel =>
      simp only [Rust.bind]
      split
      · rfl
      · cases e.fdetype with
        | pcInc => exact FrameRowIter.scan_moved d (fun _ => rfl) e.iter
        | pcMaskV1 => exact FrameRowIter.scan_moved d (fun _ => rfl) e.iter
        | pcMask =>
          cases e.repBlockSize with
          | none => rfl
          | some b =>
            dsimp only
            split
            · rfl
            · exact FrameRowIter.scan_moved d (fun _ => rfl) e.iter

theorem searchCmp_moved (dbg : Bool) {a a' x : I32} {d : Int} (size : U32)
    (ha : a'.toInt = a.toInt + d) (hd : InI32 (x.toInt + d)) :
    SFrame.searchCmp dbg a' (x + BitVec.ofInt 32 d) size = SFrame.searchCmp dbg a x size := by
  unfold SFrame.searchCmp
  rw [subI32_moved dbg ha hd, toInt_moved hd, ha]
  by_cases h : a.toInt < x.toInt
  · rw [if_pos h, if_pos (by omega)]
  · rw [if_neg h, if_neg (by omega)]

/-- The searches look at members of the list only. -/
theorem search152_congr {α} {f f' : α → Rust Ordering} {l : List α} (hf : ∀ x ∈ l, f x = f' x) :
    ∀ fuel left right size, search152 f l fuel left right size = search152 f' l fuel left right size
  | 0, left, right, size => by
    unfold search152; rfl
  | fuel + 1, left, right, size => by
    unfold search152
    split
    · dsimp only
      cases h : l[left + size / 2]? with
      | none => rfl
      | some x =>
        dsimp only
        rw [hf x (List.mem_of_getElem? h)]
        cases f' x with
        | panic p => rfl
        | diverge => rfl
        | ok c =>
          simp only [Rust.bind]
          split
          · rfl
          · exact search152_congr hf fuel _ _ _
    · rfl

theorem search182_congr {α} {f f' : α → Rust Ordering} {l : List α} (hf : ∀ x ∈ l, f x = f' x) :
    ∀ fuel base size, search182 f l fuel base size = search182 f' l fuel base size
  | 0, base, size => by
    unfold search182
    split
    · rfl
    · cases h : l[base]? with
      | none => rfl
      | some x => dsimp only; rw [hf x (List.mem_of_getElem? h)]
  | fuel + 1, base, size => by
    unfold search182
    split
    · dsimp only
      cases h : l[base + size / 2]? with
      | none => rfl
      | some x =>
        dsimp only
        rw [hf x (List.mem_of_getElem? h)]
        cases f' x with
        | panic p => rfl
        | diverge => rfl
        | ok c => exact search182_congr hf fuel _ _
    · cases h : l[base]? with
      | none => rfl
      | some x => dsimp only; rw [hf x (List.mem_of_getElem? h)]

theorem binarySearchBy_congr {α} (alg : SearchAlg) {f f' : α → Rust Ordering} {l : List α}
    (hf : ∀ x ∈ l, f x = f' x) : binarySearchBy alg f l = binarySearchBy alg f' l := by
  cases alg <;> simp only [binarySearchBy]
  · exact search152_congr hf _ _ _ _
  · split
    · rfl
    · exact search182_congr hf _ _ _

theorem find_moved (dbg : Bool) {a a' : I32} {d : Int} (ha : a'.toInt = a.toInt + d)
    (fres : List U8) : ∀ (n : Nat) (l : List Fde), (∀ x ∈ l, InI32 (x.startAddress.toInt + d)) →
    FuncDescIter.findFuel (fun e => e.contains dbg a') n
      ({ fdes := l.map (Fde.moved d), fres := fres } : FuncDescIter o) =
    (FuncDescIter.findFuel (fun e => e.contains dbg a) n
      ({ fdes := l, fres := fres } : FuncDescIter o)).bind fun x => .ok (x.map (FuncDescEntry.moved d))
  | n, [], _ => by unfold FuncDescIter.findFuel; rfl
  | n, x :: l, h => by
    have hx := h x (List.mem_cons_self ..)
    have hl : ∀ y ∈ l, InI32 (y.startAddress.toInt + d) := fun y hy => h y (List.mem_cons_of_mem _ hy)
    unfold FuncDescIter.findFuel
    simp only [FuncDescIter.next, List.map_cons, Fde.moved_startFreOff]
    have hc := C131_contains dbg (⟨x, (getFrom fres x.startFreOff.toNat).getD []⟩ : FuncDescEntry o)
      (d := d) ha hx
    rw [show (FuncDescEntry.moved d (⟨x, (getFrom fres x.startFreOff.toNat).getD []⟩ : FuncDescEntry o)) =
      ⟨x.moved d, (getFrom fres x.startFreOff.toNat).getD []⟩ from rfl] at hc
    rw [hc]
    cases FuncDescEntry.contains dbg (⟨x, (getFrom fres x.startFreOff.toNat).getD []⟩ : FuncDescEntry o) a with
    | panic p => rfl
    | diverge => rfl
    | ok b =>
      cases b with
      | true => rfl
      | false =>
        cases n with
        | zero => rfl
        | succ n => exact find_moved dbg ha fres n l hl

/-- **C131**, the function: in a section whose functions are those of another one, moved, the function
found for the moved address is the one that was found for the address, moved. -/
theorem C131_function (alg : SearchAlg) (dbg : Bool) {s s' : SFrame o} {d : Int} {a a' : I32}
    (hs : s'.fdes.toList = s.fdes.toList.map (Fde.moved d)) (hfl : s'.flags = s.flags)
    (hfr : s'.fres = s.fres) (ha : a'.toInt = a.toInt + d)
    (hd : ∀ x ∈ s.fdes.toList, InI32 (x.startAddress.toInt + d)) :
    s'.fdeForAddress alg dbg a' = (s.fdeForAddress alg dbg a).bind fun x =>
      .ok (x.map (FuncDescEntry.moved d)) := by
  by_cases hf : Flags.contains s.flags Flags.FDE_SORTED = true
  · rw [sorted_lookup alg dbg s a hf, sorted_lookup alg dbg s' a' (by rw [hfl]; exact hf), hs, hfr,
      binarySearchBy_map]
    rw [binarySearchBy_congr alg (f' := fun fde => SFrame.searchCmp dbg a fde.startAddress fde.size)
      (fun x hx => by
        rw [x.moved_startAddress, x.moved_size]
        exact searchCmp_moved dbg _ ha (hd x hx))]
    cases binarySearchBy alg (fun fde : Fde => SFrame.searchCmp dbg a fde.startAddress fde.size)
        s.fdes.toList with
    | panic p => rfl
    | diverge => rfl
    | ok r =>
      cases r with
      | error n => rfl
      | ok i =>
        simp only [Rust.bind, List.getElem?_map, Option.map_map]
        rfl
  · unfold SFrame.fdeForAddress
    rw [hfl, if_pos hf, if_pos hf]
    unfold FuncDescIter.find SFrame.iter FuncDescIter.sizeHint
    dsimp only
    rw [hs, hfr, List.length_map]
    exact find_moved dbg ha s.fres _ _ hd

/-- The two lookups together. -/
theorem foundRules_moved (alg : SearchAlg) (dbg : Bool) {out out' : List U8} {s s' : SFrame o}
    (hl : SFrame.load o out = .ok (.ok s)) (hl' : SFrame.load o out' = .ok (.ok s'))
    {d : Int} {a a' : I32}
    (hs : s'.fdes.toList = s.fdes.toList.map (Fde.moved d)) (hfl : s'.flags = s.flags)
    (hfr : s'.fres = s.fres) (hfp : s'.fixedFpOffset = s.fixedFpOffset)
    (hra : s'.fixedRaOffset = s.fixedRaOffset) (ha : a'.toInt = a.toInt + d)
    (hd : ∀ x ∈ s.fdes.toList, InI32 (x.startAddress.toInt + d))
    (hmem : ∀ e, s.fdeForAddress alg dbg a = .ok (some e) → e.fde ∈ s.fdes.toList) :
    foundRules alg dbg o out' a' = foundRules alg dbg o out a := by
  unfold foundRules
  rw [hl, hl']
  simp only [Rust.bind_ok]
  rw [C131_function alg dbg hs hfl hfr ha hd]
  cases hr : s.fdeForAddress alg dbg a with
  | panic p => rfl
  | diverge => rfl
  | ok x =>
    cases x with
    | none => rfl
    | some e =>
      simp only [Rust.bind_ok, Option.map]
      rw [C131_row dbg e ha (hd e.fde (hmem e hr))]
      cases e.getFreForAddress dbg a with
      | panic p => rfl
      | diverge => rfl
      | ok r =>
        rcases r with e | _ | r
        · rfl
        · rfl
        · simp only [Rust.bind_ok, Except.map, Option.map, FrameRowEntry.raOffset,
            FrameRowEntry.fpOffset, hfp, hra]
          rfl

theorem found_mem {alg : SearchAlg} {dbg : Bool} {s : SFrame o} {a : I32} {e : FuncDescEntry o}
    (h : s.fdeForAddress alg dbg a = .ok (some e)) : e.fde ∈ s.fdes.toList := by
  obtain ⟨es, hes, ⟨e', he', hfde⟩, _⟩ := C14_found_covers h
  rw [FuncDescIter.collect_eq] at hes
  cases hes
  obtain ⟨x, hx, rfl⟩ := List.mem_map.1 he'
  rw [hfde]
  exact hx

/-! ### Moved builders -/

/-- A function at another place. -/
def Spec.movedFunction (d : Int) (f : FuncDescBuilder) : FuncDescBuilder :=
  { f with startAddress := f.startAddress + BitVec.ofInt 32 d }

theorem overlaps_moved (dbg : Bool) {d : Int} {f g : FuncDescBuilder}
    (hf : InI32 (f.startAddress.toInt + d)) (hg : InI32 (g.startAddress.toInt + d)) :
    SFrameBuilder.overlaps dbg (movedFunction d f) (movedFunction d g) =
      SFrameBuilder.overlaps dbg f g := by
  unfold SFrameBuilder.overlaps movedFunction
  dsimp only
  rw [subI32_moved dbg (toInt_moved hg) hf, toInt_moved hf, toInt_moved hg,
    show decide (¬ f.startAddress.toInt + d ≤ g.startAddress.toInt + d) =
      decide (¬ f.startAddress.toInt ≤ g.startAddress.toInt) from decide_eq_decide.2 (by omega)]

theorem anyPairs_moved (dbg : Bool) {d : Int} : ∀ {l : List FuncDescBuilder},
    (∀ f ∈ l, InI32 (f.startAddress.toInt + d)) →
    SFrameBuilder.anyPairs (SFrameBuilder.overlaps dbg) (l.map (movedFunction d)) =
      SFrameBuilder.anyPairs (SFrameBuilder.overlaps dbg) l
  | [], _ => rfl
  | [_], _ => rfl
  | f :: g :: l, h => by
    have hf := h f (by simp)
    have hg := h g (by simp)
    have ih := anyPairs_moved dbg (l := g :: l) fun x hx => h x (List.mem_cons_of_mem _ hx)
    simp only [List.map_cons] at ih ⊢
    unfold SFrameBuilder.anyPairs
    rw [overlaps_moved dbg hf hg, ih]

theorem chunks_moved (o : Endian) (d : Int) (l : List FuncDescBuilder) :
    chunks o (l.map (movedFunction d)) = chunks o l := by
  unfold chunks
  rw [List.flatMap_map]
  rfl

theorem rowCount_moved (d : Int) (l : List FuncDescBuilder) :
    rowCount (l.map (movedFunction d)) = rowCount l := by
  unfold rowCount
  rw [List.map_map]
  rfl

theorem fdesOf_moved (o : Endian) (d : Int) : ∀ (l : List FuncDescBuilder) (off : Nat),
    (fdesOf o (l.map (movedFunction d)) off).map Fde.v2 =
      ((fdesOf o l off).map Fde.v2).map (Fde.moved d)
  | [], _ => rfl
  | f :: l, off => by
    have ih := fdesOf_moved o d l (off + (chunk o f).length)
    simp only [List.map_cons, fdesOf]
    rw [← ih]
    rfl

theorem fdesOf_start (o : Endian) : ∀ (l : List FuncDescBuilder) (off : Nat),
    ∀ x ∈ fdesOf o l off, ∃ f ∈ l, x.startAddress = f.startAddress
  | [], _, _, hx => by simp [fdesOf] at hx
  | f :: l, off, x, hx => by
    simp only [fdesOf, List.mem_cons] at hx
    rcases hx with rfl | hx
    · exact ⟨f, by simp, rfl⟩
    · obtain ⟨g, hg, h⟩ := fdesOf_start o l _ x hx
      exact ⟨g, List.mem_cons_of_mem _ hg, h⟩

/-- **C131**, the builder: a section whose functions are those of another one, moved, is refused in the
same way, or it is built, is as long as the other one, and gives at every moved address the rules
that the other one gives at the address. -/
theorem C131_built (alg : SearchAlg) (dbg dbg' : Bool) (o : Endian) {b b' : SFrameBuilder}
    (hb : SFrameBuilder.Reachable dbg' b) (hb' : SFrameBuilder.Reachable dbg' b')
    (ho : b'.options = b.options) {d : Int}
    (hf : functions b' = (functions b).map (movedFunction d))
    (hd : ∀ f ∈ functions b, InI32 (f.startAddress.toInt + d)) :
    (∀ p, b.build dbg o = .panic p → b'.build dbg o = .panic p) ∧
    (∀ e, b.build dbg o = .ok (.error e) → b'.build dbg o = .ok (.error e)) ∧
    ∀ out, b.build dbg o = .ok (.ok out) → ∃ out', b'.build dbg o = .ok (.ok out') ∧
      out'.length = out.length ∧
      ∀ dbg'' (a a' : I32), a'.toInt = a.toInt + d →
        foundRules alg dbg'' o out' a' = foundRules alg dbg'' o out a := by
  have hv : b'.fdes.values = b.fdes.values.map (movedFunction d) := hf
  have hlen : b'.fdes.length = b.fdes.length := by
    rw [← functions_length, ← functions_length, hf, List.length_map]
  have hfit : Fits o b' ↔ Fits o b := by
    unfold Fits
    rw [hlen, hv, chunks_moved, rowCount_moved]
  have hbuild := build_eq dbg o b hb.inv
  have hbuild' := build_eq dbg o b' hb'.inv
  rw [hv, anyPairs_moved dbg (l := b.fdes.values) hd] at hbuild'
  rw [hbuild, hbuild']
  cases SFrameBuilder.anyPairs (SFrameBuilder.overlaps dbg) b.fdes.values with
  | panic p => exact ⟨fun _ h => h, fun _ h => (by cases h), fun _ h => (by cases h)⟩
  | diverge => exact ⟨fun _ h => (by cases h), fun _ h => (by cases h), fun _ h => (by cases h)⟩
  | ok ov =>
    cases ov with
    | true => exact ⟨fun _ h => h, fun _ h => h, fun _ h => (by cases h)⟩
    | false =>
      by_cases hfb : Fits o b
      · have hfb' := hfit.2 hfb
        simp only [Rust.bind_ok, Bool.false_eq_true, if_false, if_pos hfb, if_pos hfb']
        refine ⟨fun _ h => (by cases h), fun _ h => (by cases h), fun out h => ?_⟩
        cases h
        refine ⟨_, rfl, ?_, fun dbg'' a a' ha => ?_⟩
        · rw [image_length, image_length, hlen, hv, chunks_moved]
        · have hd' : ∀ x ∈ (readBack o b).fdes.toList, InI32 (x.startAddress.toInt + d) := by
            intro x hx
            obtain ⟨y, hy, rfl⟩ := List.mem_map.1 hx
            obtain ⟨f, hf, h⟩ := fdesOf_start o _ _ y hy
            show InI32 (y.startAddress.toInt + d)
            rw [h]
            exact hd f hf
          refine foundRules_moved alg dbg'' (load_image o b hfb) (load_image o b' hfb') (d := d) ?_ ?_ ?_
            ?_ ?_ ha hd' fun e he => found_mem he
          · show (fdesOf o b'.fdes.values 0).map Fde.v2 = _
            rw [hv, fdesOf_moved]
            rfl
          · show b'.options.flags = b.options.flags
            rw [ho]
          · show chunks o b'.fdes.values = chunks o b.fdes.values
            rw [hv, chunks_moved]
          · unfold SFrame.fixedFpOffset readBack
            rw [ho]
          · unfold SFrame.fixedRaOffset readBack
            rw [ho]
      · have hfb' := fun h => hfb (hfit.1 h)
        simp only [Rust.bind_ok, Bool.false_eq_true, if_false, if_neg hfb, if_neg hfb']
        exact ⟨fun _ h => h, fun _ h => h, fun _ h => (by cases h)⟩

/-! ### Moved code -/

theorem moved_number {x d : U64} (hx : x.toNat ≤ 2147483647) (h : (x + d).toNat ≤ 2147483647) :
    ((x + d).toNat : Int) = x.toNat + d.toInt := by
  rw [BitVec.toNat_add] at *
  rw [BitVec.toInt_eq_toNat_cond]
  have := d.isLt
  split <;> omega

theorem setWidth_toInt32 {d : U64} : (d.setWidth 32 : U32) = BitVec.ofInt 32 d.toInt := by
  apply BitVec.eq_of_toNat_eq
  rw [BitVec.toNat_setWidth, BitVec.toNat_ofInt, BitVec.toInt_eq_toNat_cond]
  have := d.isLt
  split <;> omega

/-- What the converter makes of moved code. -/
theorem converted_moved (dbg dbg' : Bool) (eh : EhFrame) (opts : Options) (d : U64) {b : SFrameBuilder}
    (h : dwarf2sframe dbg eh opts = .ok (.ok b))
    (hd : ∀ fde, .ok fde ∈ inputs eh opts.bases → (fde.initial + d).toNat ≤ 2147483647) :
    ∃ b', dwarf2sframe dbg (mapFdes (shiftFde d) eh) opts = .ok (.ok b') ∧
      SFrameBuilder.Reachable dbg' b ∧ SFrameBuilder.Reachable dbg' b' ∧ b'.options = b.options ∧
      functions b' = (functions b).map (movedFunction d.toInt) ∧
      (∀ f ∈ functions b, InI32 (f.startAddress.toInt + d.toInt)) ∧
      ∀ f ∈ functions b, ∃ fde, .ok fde ∈ inputs eh opts.bases ∧ f.startAddress.toInt = fde.initial.toNat ∧
        f.startAddress.toInt + d.toInt = (fde.initial + d).toNat ∧ f.size.toNat = fde.len.toNat := by
  obtain ⟨b', hb', ho, hf⟩ := C82_moved dbg eh opts b d h hd
  have hr := converted_reachable (dbg' := dbg') h
  have hr' := converted_reachable (dbg' := dbg') hb'
  refine ⟨b', hb', hr, hr', ho, ?_, ?_, ?_⟩
  · rw [hf]
    apply List.map_congr_left
    intro f _
    rw [movedFunction, ← setWidth_toInt32]
  · obtain ⟨fdes, hin, hc, rfl⟩ := dwarf2sframe_ok_iff.1 h
    intro f hf
    obtain ⟨fde, hl, rfl⟩ := (mem_functions (fun g hg => (hc g hg).start) f).1 hf
    have hm := hl.mem
    have hs := (hc fde hm).start
    have hd' := hd fde (by rw [hin]; exact List.mem_map_of_mem hm)
    rw [(fnFor_fields _ opts fde).2.1, setWidth_toInt hs, ← moved_number hs hd']
    exact ⟨by omega, by omega⟩
  · obtain ⟨fdes, hin, hc, rfl⟩ := dwarf2sframe_ok_iff.1 h
    intro f hf
    obtain ⟨fde, hl, rfl⟩ := (mem_functions (fun g hg => (hc g hg).start) f).1 hf
    have hm := hl.mem
    have hs := (hc fde hm).start
    have hi : .ok fde ∈ inputs eh opts.bases := by rw [hin]; exact List.mem_map_of_mem hm
    refine ⟨fde, hi, ?_, ?_, ?_⟩
    · rw [(fnFor_fields _ opts fde).2.1, setWidth_toInt hs]
    · rw [(fnFor_fields _ opts fde).2.1, setWidth_toInt hs, ← moved_number hs (hd fde hi)]
    · have := (hc fde hm).len
      rw [(fnFor_fields _ opts fde).2.2.1, BitVec.toNat_setWidth]
      omega

/-- **C131**, end to end: convert and build the call frame information of some code, and that of the
same code at another place.  If the first gives a section, so does the second, of the same length,
and it gives at every moved address the rules that the first gives at the address. -/
theorem C131_converted (alg : SearchAlg) (dbg dbg' dbg'' : Bool) (o : Endian) (eh : EhFrame)
    (opts : Options) (d : U64) {b : SFrameBuilder} {out : List U8}
    (h : dwarf2sframe dbg eh opts = .ok (.ok b)) (hout : b.build dbg' o = .ok (.ok out))
    (hd : ∀ fde, .ok fde ∈ inputs eh opts.bases → (fde.initial + d).toNat ≤ 2147483647) :
    ∃ b' out', dwarf2sframe dbg (mapFdes (shiftFde d) eh) opts = .ok (.ok b') ∧
      b'.build dbg' o = .ok (.ok out') ∧ out'.length = out.length ∧
      ∀ a a' : I32, a'.toInt = a.toInt + d.toInt →
        foundRules alg dbg'' o out' a' = foundRules alg dbg'' o out a := by
  obtain ⟨b', hb', hr, hr', ho, hmv, hrange, _⟩ := converted_moved dbg dbg' eh opts d h hd
  obtain ⟨_, _, hok⟩ := C131_built alg dbg' dbg' o hr hr' ho hmv hrange
  obtain ⟨out', h1, h2, h3⟩ := hok out hout
  exact ⟨b', out', hb', h1, h2, h3 dbg''⟩

theorem tidy_shift (d : U64) (row : DwRow) : tidy (shiftRow d row) = shiftRow d (tidy row) := by
  unfold tidy shiftRow
  simp only [DwRow.mk.injEq, true_and]
  refine ⟨?_, rfl⟩
  by_cases h : row.start = row.end_
  · rw [if_pos h, if_pos (by rw [h])]
    bv_omega
  · rw [if_neg h, if_neg (fun e => h (by bv_omega))]

theorem tidyFde_shift (d : U64) (fde : DwFde) :
    tidyFde (shiftFde d fde) = shiftFde d (tidyFde fde) := by
  unfold tidyFde shiftFde
  simp only [DwFde.mk.injEq, true_and]
  cases fde.rows with
  | error e => rfl
  | ok xs =>
    simp only [Except.map, List.map_map, Except.ok.injEq]
    apply List.map_congr_left
    intro x _
    cases x with
    | error e => rfl
    | ok r => simp only [Function.comp, tidy_shift]

/-- What the legacy converter makes of moved code. -/
theorem legacy_moved (dbg dbg' : Bool) (eh : EhFrame) (bases : Bases) (d : U64) {b : SFrameBuilder}
    (h : legacyConvert dbg eh bases = .ok (.ok b))
    (hd : ∀ fde, .ok fde ∈ inputs eh bases → (fde.initial + d).toNat ≤ 2147483647) :
    ∃ b', legacyConvert dbg (mapFdes (shiftFde d) eh) bases = .ok (.ok b') ∧
      SFrameBuilder.Reachable dbg' b ∧ SFrameBuilder.Reachable dbg' b' ∧ b'.options = b.options ∧
      functions b' = (functions b).map (movedFunction d.toInt) ∧
      (∀ f ∈ functions b, InI32 (f.startAddress.toInt + d.toInt)) ∧
      ∀ f ∈ functions b, ∃ fde, .ok fde ∈ inputs eh bases ∧ f.startAddress.toInt = fde.initial.toNat ∧
        f.startAddress.toInt + d.toInt = (fde.initial + d).toNat ∧ f.size.toNat = fde.len.toNat := by
  obtain ⟨fdes, hin, hl, rfl⟩ := legacyConvert_iff.1 h
  have hd' : ∀ fde ∈ fdes, (fde.initial + d).toNat ≤ 2147483647 := fun fde hf =>
    hd fde (by rw [hin]; exact List.mem_map_of_mem hf)
  have hc : ∀ g ∈ fdes.map tidyFde, Convertible legacyOptions (legacyLike bases) g := by
    intro g hg
    obtain ⟨fde, hf, rfl⟩ := List.mem_map.1 hg
    exact ((legacyConvertible_iff bases fde).1 (hl fde hf)).1
  have hdt : ∀ g ∈ fdes.map tidyFde, (g.initial + d).toNat ≤ 2147483647 := by
    intro g hg
    obtain ⟨fde, hf, rfl⟩ := List.mem_map.1 hg
    exact hd' fde hf
  have hmm : (fdes.map (shiftFde d)).map tidyFde = (fdes.map tidyFde).map (shiftFde d) := by
    rw [List.map_map, List.map_map]
    exact List.map_congr_left fun fde _ => tidyFde_shift d fde
  have hc' : ∀ g ∈ (fdes.map tidyFde).map (shiftFde d),
      Convertible legacyOptions (legacyLike bases) g := by
    intro g hg
    obtain ⟨fde, hf, rfl⟩ := List.mem_map.1 hg
    exact (convertible_shift (hdt fde hf) (hc fde hf)).1
  have hl' : ∀ g ∈ fdes.map (shiftFde d), LegacyConvertible g := by
    intro g hg
    obtain ⟨fde, hf, rfl⟩ := List.mem_map.1 hg
    rw [legacyConvertible_iff bases]
    refine ⟨hc' _ ?_, fun r hr => ?_⟩
    · rw [← hmm]
      exact List.mem_map_of_mem hg
    · rw [rowsOf_shift] at hr
      obtain ⟨r', hr', rfl⟩ := List.mem_map.1 hr
      exact ((legacyConvertible_iff bases fde).1 (hl fde hf)).2 r' hr'
  have hb' : legacyConvert dbg (mapFdes (shiftFde d) eh) bases =
      .ok (.ok (outputOf legacyOptions (legacyLike bases) ((fdes.map tidyFde).map (shiftFde d)))) := by
    refine legacyConvert_iff.2 ⟨fdes.map (shiftFde d), ?_, hl', by rw [hmm]⟩
    rw [inputs_mapFdes, hin, List.map_map, List.map_map]
    rfl
  have hf := functions_shift (so := legacyOptions) (opts := legacyLike bases) rfl hc hdt hc'
  have hmv : functions (outputOf legacyOptions (legacyLike bases) ((fdes.map tidyFde).map (shiftFde d))) =
      (functions (outputOf legacyOptions (legacyLike bases) (fdes.map tidyFde))).map
        (movedFunction d.toInt) := by
    rw [hf]
    apply List.map_congr_left
    intro f _
    rw [movedFunction, ← setWidth_toInt32]
  have hrange : ∀ f ∈ functions (outputOf legacyOptions (legacyLike bases) (fdes.map tidyFde)),
      InI32 (f.startAddress.toInt + d.toInt) := by
    intro f hf
    obtain ⟨fde, hl, rfl⟩ := (mem_functions (fun g hg => (hc g hg).start) f).1 hf
    have hm := hl.mem
    have hs := (hc fde hm).start
    rw [(fnFor_fields _ _ fde).2.1, setWidth_toInt hs, ← moved_number hs (hdt fde hm)]
    have := hdt fde hm
    exact ⟨by omega, by omega⟩
  have hr : SFrameBuilder.Reachable dbg' (outputOf legacyOptions (legacyLike bases) (fdes.map tidyFde)) :=
    more_reachable rfl (.new _) hc
  have hr' : SFrameBuilder.Reachable dbg'
      (outputOf legacyOptions (legacyLike bases) ((fdes.map tidyFde).map (shiftFde d))) :=
    more_reachable rfl (.new _) hc'
  refine ⟨_, hb', hr, hr', rfl, hmv, hrange, fun f hf => ?_⟩
  obtain ⟨g, hlg, rfl⟩ := (mem_functions (fun g hg => (hc g hg).start) f).1 hf
  have hm := hlg.mem
  have hs := (hc g hm).start
  have hlen := (hc g hm).len
  have hdg := hdt g hm
  rw [(fnFor_fields _ _ g).2.1, (fnFor_fields _ _ g).2.2.1, setWidth_toInt hs, BitVec.toNat_setWidth,
    ← moved_number hs hdg]
  obtain ⟨fde, hfde, rfl⟩ := List.mem_map.1 hm
  exact ⟨fde, by rw [hin]; exact List.mem_map_of_mem hfde, rfl, rfl, Nat.mod_eq_of_lt (by omega)⟩

/-- **C131**, the legacy converter. -/
theorem C131_legacy (alg : SearchAlg) (dbg dbg' dbg'' : Bool) (o : Endian) (eh : EhFrame)
    (bases : Bases) (d : U64) {b : SFrameBuilder} {out : List U8}
    (h : legacyConvert dbg eh bases = .ok (.ok b)) (hout : b.build dbg' o = .ok (.ok out))
    (hd : ∀ fde, .ok fde ∈ inputs eh bases → (fde.initial + d).toNat ≤ 2147483647) :
    ∃ b' out', legacyConvert dbg (mapFdes (shiftFde d) eh) bases = .ok (.ok b') ∧
      b'.build dbg' o = .ok (.ok out') ∧ out'.length = out.length ∧
      ∀ a a' : I32, a'.toInt = a.toInt + d.toInt →
        foundRules alg dbg'' o out' a' = foundRules alg dbg'' o out a := by
  obtain ⟨b', hb', hr, hr', ho, hmv, hrange, _⟩ := legacy_moved dbg dbg' eh bases d h hd
  obtain ⟨_, _, hok⟩ := C131_built alg dbg' dbg' o hr hr' ho hmv hrange
  obtain ⟨out', h1, h2, h3⟩ := hok out hout
  exact ⟨b', out', hb', h1, h2, h3 dbg''⟩

/-! ### Non-vacuity -/

/-- The section of the sample function, and that of the function moved down by 0x1000, both with a row
for the address 5 bytes into it. -/
example : ∃ b b' : SFrameBuilder, ∃ out out',
    dwarf2sframe true (Samples.ehOf [Samples.dwFde]) Samples.convOpts = .ok (.ok b) ∧
    dwarf2sframe true (mapFdes (shiftFde (-0x1000)) (Samples.ehOf [Samples.dwFde])) Samples.convOpts =
      .ok (.ok b') ∧
    b.build true .little = .ok (.ok out) ∧ b'.build true .little = .ok (.ok out') ∧ out' ≠ out ∧
    foundRules .v152 true .little out 0x1005 = .ok (.ok (some ⟨0, .sp, false, .ok 8, .ok (-8),
      .error .missingFreOffset⟩)) ∧
    foundRules .v152 true .little out' 5 = foundRules .v152 true .little out 0x1005 ∧
    foundRules .v152 true .little out' 0x1005 = .ok (.ok none) :=
  ⟨{ options := Samples.opts, fdes := [(0x1000, Samples.convFn)] },
    { options := Samples.opts, fdes := [(0, { Samples.convFn with startAddress := 0 })] },
    image .little { options := Samples.opts, fdes := [(0x1000, Samples.convFn)] },
    image .little { options := Samples.opts, fdes := [(0, { Samples.convFn with startAddress := 0 })] },
    by decide +kernel, by decide +kernel, by decide +kernel, by decide +kernel, by decide +kernel,
    by decide +kernel, by decide +kernel, by decide +kernel⟩

/-- The same for the legacy converter, on one of its samples. -/
example : ∃ b b' : SFrameBuilder, ∃ out out',
    legacyConvert true (Samples.ehOf [Samples.fdeWith Samples.rbxRow]) Bases.default = .ok (.ok b) ∧
    legacyConvert true (mapFdes (shiftFde 0x230) (Samples.ehOf [Samples.fdeWith Samples.rbxRow]))
      Bases.default = .ok (.ok b') ∧
    b.build true .little = .ok (.ok out) ∧ b'.build true .little = .ok (.ok out') ∧ out' ≠ out ∧
    (∃ r, foundRules .v152 true .little out 0x1004 = .ok (.ok (some r)) ∧
      foundRules .v152 true .little out' 0x1234 = .ok (.ok (some r))) :=
  ⟨{ options := legacyOptions, fdes := [(0x1000, Samples.legacyFn ⟨16, some (-8), none⟩)] },
    { options := legacyOptions, fdes := [(0x1230,
      { Samples.legacyFn ⟨16, some (-8), none⟩ with startAddress := 0x1230 })] },
    image .little { options := legacyOptions, fdes := [(0x1000, Samples.legacyFn ⟨16, some (-8), none⟩)] },
    image .little { options := legacyOptions, fdes := [(0x1230,
      { Samples.legacyFn ⟨16, some (-8), none⟩ with startAddress := 0x1230 })] },
    by decide +kernel, by decide +kernel, by decide +kernel, by decide +kernel, by decide +kernel,
    ⟨0, .sp, false, .ok 8, .ok (-8), .error .missingFreOffset⟩, by decide +kernel, by decide +kernel⟩

/-- The start of a moved function must be an `i32`: by two bytes further this one wraps around, and no
longer contains the last address. -/
example : ∃ e : FuncDescEntry .little, e.contains false 0x7FFFFFFF = .ok true ∧
    (e.moved 1).contains false 0x7FFFFFFF = .ok true ∧ (e.moved 2).contains false 0x7FFFFFFF = .ok false ∧
    ¬ InI32 (e.startAddress.toInt + 2) :=
  ⟨⟨.v2 ⟨0x7FFFFFFE, 2, 0, 0, 0, 0, 0⟩, []⟩, by decide +kernel, by decide +kernel, by decide +kernel,
    by unfold InI32; decide +kernel⟩

end Verif
