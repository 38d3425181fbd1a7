import Verif.Model.Dump
import Verif.Model.DebugText
import Verif.Proofs.Load
/-!
# Reading with the bits that mean nothing cleared

`clean` clears the top three bits of the info byte of a function and its two bytes of padding.
Every operation of the reader commutes with it.
-/

namespace Verif
open Spec

def FdeV1.clean (f : FdeV1) : FdeV1 := { f with info := f.info &&& 31 }
def FdeV2.clean (f : FdeV2) : FdeV2 := { f with info := f.info &&& 31, padding2 := 0 }

def Fde.clean : Fde → Fde
  | .v1 f => .v1 f.clean
  | .v2 f => .v2 f.clean

def FdeList.clean : FdeList → FdeList
  | .v1 l => .v1 (l.map FdeV1.clean)
  | .v2 l => .v2 (l.map FdeV2.clean)

variable {o : Endian}

def FuncDescEntry.clean (e : FuncDescEntry o) : FuncDescEntry o := { e with fde := e.fde.clean }
def FrameRowEntry.clean (r : FrameRowEntry o) : FrameRowEntry o := { r with fde := r.fde.clean }
def FrameRowIter.clean (it : FrameRowIter o) : FrameRowIter o := { it with fde := it.fde.clean }
def FuncDescIter.clean (it : FuncDescIter o) : FuncDescIter o :=
  { it with fdes := it.fdes.map Fde.clean }
def SFrame.clean (s : SFrame o) : SFrame o := { s with fdes := s.fdes.clean }

/-! ### The info byte -/

theorem and31_fretype (b : U8) : FdeInfo.fretype (b &&& 31) = FdeInfo.fretype b := by
  revert b; decide +kernel
theorem and31_fdetype (b : U8) : FdeInfo.fdetype (b &&& 31) = FdeInfo.fdetype b := by
  revert b; decide +kernel
theorem and31_pauthKey (b : U8) : FdeInfo.pauthKey (b &&& 31) = FdeInfo.pauthKey b := by
  revert b; decide +kernel

namespace Fde
variable (f : Fde)

theorem clean_startAddress : f.clean.startAddress = f.startAddress := by cases f <;> rfl
theorem clean_size : f.clean.size = f.size := by cases f <;> rfl
theorem clean_startFreOff : f.clean.startFreOff = f.startFreOff := by cases f <;> rfl
theorem clean_numFres : f.clean.numFres = f.numFres := by cases f <;> rfl
theorem clean_repSize : f.clean.repSize = f.repSize := by cases f <;> rfl
theorem clean_fretype : FdeInfo.fretype f.clean.info = FdeInfo.fretype f.info := by
  cases f <;> exact and31_fretype _
theorem clean_rawType : FdeInfo.fdetype f.clean.info = FdeInfo.fdetype f.info := by
  cases f <;> exact and31_fdetype _
theorem clean_pauthKey : FdeInfo.pauthKey f.clean.info = FdeInfo.pauthKey f.info := by
  cases f <;> exact and31_pauthKey _
theorem clean_fdetype : f.clean.fdetype = f.fdetype := by
  cases f <;> simp only [clean, fdetype, FdeV1.clean, FdeV2.clean, and31_fdetype]

end Fde

/-! ### Rows -/

theorem load_clean (fde : Fde) (fres : List U8) :
    FrameRowEntry.load o fde.clean fres = (FrameRowEntry.load o fde fres).bind fun x =>
      .ok (x.map fun p => (p.1.clean, p.2)) := by
  unfold FrameRowEntry.load
  rw [fde.clean_fretype, fde.clean_size]
  cases FdeInfo.fretype fde.info <;> dsimp only
  case addr1 | addr2 | addr4 =>
    split
    · rfl
    · split
      · rfl
      · split
        · rfl
        · split <;> rfl
  all_goals rfl

namespace FrameRowIter

theorem next_clean (it : FrameRowIter o) :
    it.clean.next = it.next.bind fun p => .ok (p.1.map (·.map FrameRowEntry.clean), p.2.clean) := by
  unfold next
  show (if it.fde.clean.numFres.toNat ≤ it.index.toNat then _ else
    (FrameRowEntry.load o it.fde.clean it.fres).bind _) = _
  rw [it.fde.clean_numFres, load_clean]
  split
  · rfl
  · cases FrameRowEntry.load o it.fde it.fres with
    | panic p => rfl
    | diverge => rfl
    | ok x => cases x <;> rfl

theorem collectFuel_clean : ∀ (n : Nat) (it : FrameRowIter o),
    collectFuel n it.clean = (collectFuel n it).bind fun es =>
      .ok (es.map (·.map FrameRowEntry.clean))
  | n, it => by
    rw [collectFuel.eq_def n it.clean, collectFuel.eq_def n it]
    dsimp only
    rw [next_clean]
    cases it.next with
    | panic p => rfl
    | diverge => rfl
    | ok x =>
      obtain ⟨x, it'⟩ := x
      cases x with
      | none => rfl
      | some e =>
        cases n with
        | zero => rfl
        | succ n =>
          have ih := collectFuel_clean n it'
          simp only [Rust.bind, Option.map] at ih ⊢
          rw [ih]
          cases collectFuel n it' <;> rfl

theorem collect_clean (it : FrameRowIter o) :
    it.clean.collect = it.collect.bind fun es => .ok (es.map (·.map FrameRowEntry.clean)) := by
  unfold collect
  show collectFuel it.fde.clean.numFres.toNat it.clean = _
  rw [it.fde.clean_numFres]
  exact collectFuel_clean _ it

theorem scanFuel_clean {p : FrameRowEntry o → Bool} (hp : ∀ r, p r.clean = p r) :
    ∀ (n : Nat) (it : FrameRowIter o),
    scanFuel p n it.clean = (scanFuel p n it).bind fun x =>
      .ok (x.map (·.map FrameRowEntry.clean))
  | n, it => by
    rw [scanFuel.eq_def p n it.clean, scanFuel.eq_def p n it]
    dsimp only
    rw [next_clean]
    cases it.next with
    | panic p => rfl
    | diverge => rfl
    | ok x =>
      obtain ⟨x, it'⟩ := x
      rcases x with _ | e | r
      · rfl
      · rfl
      · simp only [Rust.bind, Option.map, Except.map, hp]
        split
        · rfl
        · cases n with
          | zero => rfl
          | succ n =>
            have ih := scanFuel_clean hp n it'
            simp only [Rust.bind, Option.map, Except.map] at ih ⊢
            rw [ih]

theorem scan_clean {p : FrameRowEntry o → Bool} (hp : ∀ r, p r.clean = p r)
    (it : FrameRowIter o) :
    it.clean.scan p = (it.scan p).bind fun x => .ok (x.map (·.map FrameRowEntry.clean)) := by
  unfold scan
  show scanFuel p it.fde.clean.numFres.toNat it.clean = _
  rw [it.fde.clean_numFres]
  exact scanFuel_clean hp _ it

end FrameRowIter

/-! ### Entries -/

theorem contains_clean (dbg : Bool) (e : FuncDescEntry o) (a : I32) :
    e.clean.contains dbg a = e.contains dbg a := by
  unfold FuncDescEntry.contains FuncDescEntry.startAddress FuncDescEntry.size
  show (if a.toInt < e.fde.clean.startAddress.toInt then _ else
    (subI32 dbg a e.fde.clean.startAddress).bind fun d =>
      Rust.ok (decide (d.toNat < e.fde.clean.size.toNat))) = _
  rw [e.fde.clean_startAddress, e.fde.clean_size]

theorem getFre_clean (dbg : Bool) (e : FuncDescEntry o) (a : I32) :
    e.clean.getFreForAddress dbg a = (e.getFreForAddress dbg a).bind fun x =>
      .ok (x.map (·.map FrameRowEntry.clean)) := by
  have h1 : e.clean.startAddress = e.startAddress := e.fde.clean_startAddress
  have h2 : e.clean.size = e.size := e.fde.clean_size
  have h3 : e.clean.fdetype = e.fdetype := e.fde.clean_fdetype
  have h4 : e.clean.repBlockSize = e.repBlockSize := e.fde.clean_repSize
  have h5 : e.clean.iter = e.iter.clean := rfl
  unfold FuncDescEntry.getFreForAddress
  rw [h1, h2, h3, h4, h5]
  split
  · rfl
  · cases subI32 dbg a e.startAddress with
    | panic p => rfl
    | diverge => rfl
    | ok rel =>
      simp only [Rust.bind]
      split
      · rfl
      · cases e.fdetype with
        | pcInc => exact FrameRowIter.scan_clean (fun _ => rfl) e.iter
        | pcMaskV1 => exact FrameRowIter.scan_clean (fun _ => rfl) e.iter
        | pcMask =>
          cases e.repBlockSize with
          | none => rfl
          | some b =>
            dsimp only
            split
            · rfl
            · exact FrameRowIter.scan_clean (fun _ => rfl) e.iter

/-! ### The table -/

theorem toList_clean (l : FdeList) : l.clean.toList = l.toList.map Fde.clean := by
  cases l <;> simp [FdeList.clean, FdeList.toList, Fde.clean]

theorem iter_clean (s : SFrame o) : s.clean.iter = s.iter.clean := by
  show ({ fdes := s.fdes.clean.toList, fres := s.fres } : FuncDescIter o) = _
  rw [toList_clean]; rfl

namespace FuncDescIter

theorem next_clean (it : FuncDescIter o) :
    it.clean.next = (it.next.1.map FuncDescEntry.clean, it.next.2.clean) := by
  obtain ⟨fdes, fres⟩ := it
  cases fdes with
  | nil => rfl
  | cons f r =>
    simp only [clean, next, List.map_cons, Fde.clean_startFreOff, Option.map, FuncDescEntry.clean]

theorem nth_clean (it : FuncDescIter o) (n : Nat) :
    it.clean.nth n = ((it.nth n).1.map FuncDescEntry.clean, (it.nth n).2.clean) := by
  unfold nth clean
  dsimp only
  rw [← List.map_drop]
  cases it.fdes.drop n <;> rfl

theorem nextBack_clean (it : FuncDescIter o) :
    it.clean.nextBack = (it.nextBack.1.map FuncDescEntry.clean, it.nextBack.2.clean) := by
  unfold nextBack clean
  dsimp only
  rw [List.getLast?_map, ← List.map_dropLast]
  cases it.fdes.getLast? <;> rfl

theorem sizeHint_clean (it : FuncDescIter o) : it.clean.sizeHint = it.sizeHint := by
  simp [sizeHint, clean]

theorem collectFuel_clean : ∀ (n : Nat) (it : FuncDescIter o),
    collectFuel n it.clean = (collectFuel n it).bind fun es => .ok (es.map FuncDescEntry.clean)
  | n, it => by
    rw [collectFuel.eq_def n it.clean, collectFuel.eq_def n it]
    dsimp only
    rw [next_clean]
    obtain ⟨x, it'⟩ := it.next
    cases x with
    | none => rfl
    | some e =>
      cases n with
      | zero => rfl
      | succ n =>
        have ih := collectFuel_clean n it'
        simp only [Option.map]
        rw [ih]
        cases collectFuel n it' <;> rfl

theorem collect_clean (it : FuncDescIter o) :
    it.clean.collect = it.collect.bind fun es => .ok (es.map FuncDescEntry.clean) := by
  unfold collect
  rw [sizeHint_clean]
  exact collectFuel_clean _ it

theorem collectBackFuel_clean : ∀ (n : Nat) (it : FuncDescIter o),
    collectBackFuel n it.clean =
      (collectBackFuel n it).bind fun es => .ok (es.map FuncDescEntry.clean)
  | n, it => by
    rw [collectBackFuel.eq_def n it.clean, collectBackFuel.eq_def n it]
    dsimp only
    rw [nextBack_clean]
    obtain ⟨x, it'⟩ := it.nextBack
    cases x with
    | none => rfl
    | some e =>
      cases n with
      | zero => rfl
      | succ n =>
        have ih := collectBackFuel_clean n it'
        simp only [Option.map]
        rw [ih]
        cases collectBackFuel n it' <;> rfl

theorem collectBack_clean (it : FuncDescIter o) :
    it.clean.collectBack = it.collectBack.bind fun es => .ok (es.map FuncDescEntry.clean) := by
  unfold collectBack
  rw [sizeHint_clean]
  exact collectBackFuel_clean _ it

theorem findFuel_clean {p : FuncDescEntry o → Rust Bool} (hp : ∀ e, p e.clean = p e) :
    ∀ (n : Nat) (it : FuncDescIter o),
    findFuel p n it.clean = (findFuel p n it).bind fun x => .ok (x.map FuncDescEntry.clean)
  | n, it => by
    rw [findFuel.eq_def p n it.clean, findFuel.eq_def p n it]
    dsimp only
    rw [next_clean]
    obtain ⟨x, it'⟩ := it.next
    cases x with
    | none => rfl
    | some e =>
      simp only [Option.map]
      rw [hp]
      cases p e with
      | panic p => rfl
      | diverge => rfl
      | ok b =>
        cases b with
        | true => rfl
        | false =>
          cases n with
          | zero => rfl
          | succ n => exact findFuel_clean hp n it'

end FuncDescIter

/-! ### The binary search -/

theorem search152_clean {α β} (g : α → β) {f : β → Rust Ordering} {f' : α → Rust Ordering}
    (hf : ∀ x, f (g x) = f' x) (l : List α) : ∀ fuel left right size,
    search152 f (l.map g) fuel left right size = search152 f' l fuel left right size
  | 0, left, right, size => by
    unfold search152; rfl
  | fuel + 1, left, right, size => by
    unfold search152
    simp only [List.getElem?_map]
    split
    · cases l[left + size / 2]? with
      | none => rfl
      | some x =>
        simp only [Option.map, hf]
        cases f' x with
        | panic p => rfl
        | diverge => rfl
        | ok c =>
          simp only [Rust.bind]
          split
          · rfl
          · exact search152_clean g hf l fuel _ _ _
    · rfl

theorem search182_clean {α β} (g : α → β) {f : β → Rust Ordering} {f' : α → Rust Ordering}
    (hf : ∀ x, f (g x) = f' x) (l : List α) : ∀ fuel base size,
    search182 f (l.map g) fuel base size = search182 f' l fuel base size
  | 0, base, size => by
    unfold search182
    simp only [List.getElem?_map]
    split
    · rfl
    · cases l[base]? with
      | none => rfl
      | some x => simp only [Option.map, hf]
  | fuel + 1, base, size => by
    unfold search182
    simp only [List.getElem?_map]
    split
    · cases l[base + size / 2]? with
      | none => rfl
      | some x =>
        simp only [Option.map, hf]
        cases f' x with
        | panic p => rfl
        | diverge => rfl
        | ok c => exact search182_clean g hf l fuel _ _
    · cases l[base]? with
      | none => rfl
      | some x => simp only [Option.map, hf]

theorem binarySearchBy_clean {α β} (alg : SearchAlg) (g : α → β) {f : β → Rust Ordering}
    {f' : α → Rust Ordering} (hf : ∀ x, f (g x) = f' x) (l : List α) :
    binarySearchBy alg f (l.map g) = binarySearchBy alg f' l := by
  cases alg <;> simp only [binarySearchBy, List.length_map]
  · exact search152_clean g hf l _ _ _ _
  · split
    · rfl
    · exact search182_clean g hf l _ _ _

theorem after_search (s : SFrame o) (r : Rust (Except Nat Nat)) :
    (r.bind fun
      | .error _ => .ok none
      | .ok index => .ok (s.iter.clean.nth index).1) =
    (r.bind fun
      | .error _ => .ok none
      | .ok index => .ok (s.iter.nth index).1).bind fun x => .ok (x.map FuncDescEntry.clean) := by
  cases r with
  | panic p => rfl
  | diverge => rfl
  | ok x =>
    cases x with
    | error n => rfl
    | ok i => simp only [Rust.bind, FuncDescIter.nth_clean]

theorem fdeForAddress_clean (alg : SearchAlg) (dbg : Bool) (s : SFrame o) (a : I32) :
    s.clean.fdeForAddress alg dbg a = (s.fdeForAddress alg dbg a).bind fun x =>
      .ok (x.map FuncDescEntry.clean) := by
  unfold SFrame.fdeForAddress
  rw [iter_clean]
  have hfl : s.clean.flags = s.flags := rfl
  rw [hfl]
  split
  · unfold FuncDescIter.find
    rw [FuncDescIter.sizeHint_clean]
    exact FuncDescIter.findFuel_clean (fun e => contains_clean dbg e a) _ _
  · cases hl : s.fdes with
    | v1 l =>
      have hc : s.clean.fdes = .v1 (l.map FdeV1.clean) := by
        show s.fdes.clean = _
        rw [hl]; rfl
      rw [hc]
      dsimp only
      rw [binarySearchBy_clean alg FdeV1.clean (fun _ => rfl) l]
      exact after_search s _
    | v2 l =>
      have hc : s.clean.fdes = .v2 (l.map FdeV2.clean) := by
        show s.fdes.clean = _
        rw [hl]; rfl
      rw [hc]
      dsimp only
      rw [binarySearchBy_clean alg FdeV2.clean (fun _ => rfl) l]
      exact after_search s _

/-! ### The dump and `Debug` -/

theorem dumpRow_clean (dbg : Bool) (s : SFrame o) (r : FrameRowEntry o) :
    dumpRow dbg s.clean r.clean = dumpRow dbg s r := by
  have h : r.clean.startAddress dbg = r.startAddress dbg := by
    unfold FrameRowEntry.startAddress
    show (if dbg = true then (if r.fde.clean.startAddress.toInt + _ ≤ _ then
      Rust.ok (r.fde.clean.startAddress + _) else _) else .ok (r.fde.clean.startAddress + _)) = _
    rw [r.fde.clean_startAddress]; rfl
  unfold dumpRow
  rw [h]; rfl

theorem dumpRowsFuel_clean (dbg : Bool) (s : SFrame o) : ∀ (n : Nat) (it : FrameRowIter o),
    dumpRowsFuel dbg s.clean n it.clean = dumpRowsFuel dbg s n it
  | n, it => by
    rw [dumpRowsFuel.eq_def dbg s.clean n, dumpRowsFuel.eq_def dbg s n]
    dsimp only
    rw [FrameRowIter.next_clean]
    cases it.next with
    | panic p => rfl
    | diverge => rfl
    | ok x =>
      obtain ⟨x, it'⟩ := x
      rcases x with _ | e | r
      · rfl
      · rfl
      · simp only [Rust.bind, Option.map, Except.map, dumpRow_clean]
        cases n with
        | zero => rfl
        | succ n => dsimp only; rw [dumpRowsFuel_clean dbg s n it']

theorem dumpFde_clean (dbg : Bool) (s : SFrame o) (i : Nat) (e : FuncDescEntry o) :
    dumpFde dbg s.clean i e.clean = dumpFde dbg s i e := by
  have h1 : e.clean.startAddress = e.startAddress := e.fde.clean_startAddress
  have h2 : e.clean.size = e.size := e.fde.clean_size
  have h3 : e.clean.fdetype = e.fdetype := e.fde.clean_fdetype
  have h4 : e.clean.fde.numFres = e.fde.numFres := e.fde.clean_numFres
  have h5 : e.clean.iter = e.iter.clean := rfl
  unfold dumpFde
  rw [h1, h2, h3, h4, h5, dumpRowsFuel_clean]

theorem dumpFdesFuel_clean (dbg : Bool) (s : SFrame o) : ∀ (n i : Nat) (it : FuncDescIter o),
    dumpFdesFuel dbg s.clean n i it.clean = dumpFdesFuel dbg s n i it
  | n, i, it => by
    rw [dumpFdesFuel.eq_def dbg s.clean n, dumpFdesFuel.eq_def dbg s n]
    dsimp only
    rw [FuncDescIter.next_clean]
    obtain ⟨x, it'⟩ := it.next
    cases x with
    | none => rfl
    | some e =>
      simp only [Option.map, dumpFde_clean]
      cases n with
      | zero => rfl
      | succ n => dsimp only; rw [dumpFdesFuel_clean dbg s n (i + 1) it']

theorem dump_clean (dbg : Bool) (s : SFrame o) : dump dbg s.clean = dump dbg s := by
  unfold dump
  rw [iter_clean, FuncDescIter.sizeHint_clean, dumpFdesFuel_clean]
  rfl

theorem debugItem_clean (x : Except ReadError (FrameRowEntry o)) :
    debugItem (x.map FrameRowEntry.clean) = debugItem x := by cases x <;> rfl

theorem debugRowsFuel_clean : ∀ (n : Nat) (it : FrameRowIter o),
    debugRowsFuel n it.clean = debugRowsFuel n it
  | n, it => by
    rw [debugRowsFuel.eq_def n it.clean, debugRowsFuel.eq_def n it]
    dsimp only
    rw [FrameRowIter.next_clean]
    cases it.next with
    | panic p => rfl
    | diverge => rfl
    | ok x =>
      obtain ⟨x, it'⟩ := x
      cases x with
      | none => rfl
      | some x =>
        show (debugItem (x.map FrameRowEntry.clean)).bind _ = (debugItem x).bind _
        rw [debugItem_clean]
        congr 1
        funext d
        cases n with
        | zero => rfl
        | succ n =>
          show (debugRowsFuel n it'.clean).bind _ = _
          rw [debugRowsFuel_clean n it']

theorem debug_entry_clean (e : FuncDescEntry o) : e.clean.debug = e.debug := by
  unfold FuncDescEntry.debug
  have h : e.clean.iter = e.iter.clean := rfl
  have hf : e.clean.fde = e.fde.clean := rfl
  rw [h, hf, debugRowsFuel_clean, e.fde.clean_numFres, e.fde.clean_startAddress, e.fde.clean_size,
    e.fde.clean_rawType, e.fde.clean_pauthKey, e.fde.clean_repSize, e.fde.clean_startFreOff]

theorem debugFdesFuel_clean : ∀ (n : Nat) (it : FuncDescIter o),
    debugFdesFuel n it.clean = debugFdesFuel n it
  | n, it => by
    rw [debugFdesFuel.eq_def n it.clean, debugFdesFuel.eq_def n it]
    dsimp only
    rw [FuncDescIter.next_clean]
    obtain ⟨x, it'⟩ := it.next
    cases x with
    | none => rfl
    | some e =>
      simp only [Option.map]
      rw [debug_entry_clean]
      cases n with
      | zero => rfl
      | succ n => dsimp only; rw [debugFdesFuel_clean n it']

theorem debug_clean (s : SFrame o) : s.clean.debug = s.debug := by
  unfold SFrame.debug
  rw [iter_clean, FuncDescIter.sizeHint_clean, debugFdesFuel_clean]
  rfl

end Verif
