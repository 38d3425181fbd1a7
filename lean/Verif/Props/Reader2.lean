import Verif.Props.Write
/-!
# Mixed iteration, the work of reading, locality of rows, transparency of the byte order (C76-C79)
-/

namespace Verif
open Spec
variable {o : Endian}

/-! ### C76 -/

/-- A call on the iterator of `fdes()`. -/
inductive IterCall
  | next
  | nth (n : Nat)
  | nextBack
  deriving DecidableEq, Repr

/-- One call: its result and the iterator after it. -/
def FuncDescIter.call (it : FuncDescIter o) : IterCall → Option (FuncDescEntry o) × FuncDescIter o
  | .next => it.next
  | .nth n => it.nth n
  | .nextBack => it.nextBack

/-- Any sequence of calls: the results and the iterator after them. -/
def FuncDescIter.calls : List IterCall → FuncDescIter o →
    List (Option (FuncDescEntry o)) × FuncDescIter o
  | [], it => ([], it)
  | c :: cs, it => ((it.call c).1 :: (FuncDescIter.calls cs (it.call c).2).1,
      (FuncDescIter.calls cs (it.call c).2).2)

namespace Spec

/-- What a double-ended iterator over the positions `lo, …, hi - 1` answers, and the positions left. -/
def dequeCall : IterCall → Nat × Nat → Option Nat × (Nat × Nat)
  | .next, (lo, hi) => if lo < hi then (some lo, (lo + 1, hi)) else (none, (lo, hi))
  | .nth n, (lo, hi) => if lo + n < hi then (some (lo + n), (lo + n + 1, hi)) else (none, (hi, hi))
  | .nextBack, (lo, hi) => if lo < hi then (some (hi - 1), (lo, hi - 1)) else (none, (lo, hi))

/-- A sequence of calls. -/
def deque : List IterCall → Nat × Nat → List (Option Nat) × (Nat × Nat)
  | [], w => ([], w)
  | c :: cs, w => ((dequeCall c w).1 :: (deque cs (dequeCall c w).2).1, (deque cs (dequeCall c w).2).2)

theorem dequeCall_spec (c : IterCall) (lo hi : Nat) (h : lo ≤ hi) :
    let r := dequeCall c (lo, hi)
    lo ≤ r.2.1 ∧ r.2.1 ≤ r.2.2 ∧ r.2.2 ≤ hi ∧
      ∀ p, r.1 = some p → lo ≤ p ∧ p < hi ∧ (p < r.2.1 ∨ r.2.2 ≤ p) := by
  cases c <;> simp only [dequeCall] <;> split <;> simp <;> omega

theorem deque_spec (cs : List IterCall) (lo hi : Nat) (h : lo ≤ hi) :
    ((deque cs (lo, hi)).1.filterMap id).Nodup ∧
    (∀ p ∈ (deque cs (lo, hi)).1.filterMap id, lo ≤ p ∧ p < hi) ∧
    (deque cs (lo, hi)).2.1 ≤ (deque cs (lo, hi)).2.2 := by
  induction cs generalizing lo hi with
  | nil => simp [deque, h]
  | cons c cs ih =>
    obtain ⟨h1, h2, h3, h4⟩ := dequeCall_spec c lo hi h
    rw [show deque (c :: cs) (lo, hi) = ((dequeCall c (lo, hi)).1 :: (deque cs (dequeCall c (lo, hi)).2).1,
      (deque cs (dequeCall c (lo, hi)).2).2) from rfl]
    generalize dequeCall c (lo, hi) = r at *
    obtain ⟨x, lo', hi'⟩ := r
    obtain ⟨i1, i2, i3⟩ := ih lo' hi' h2
    refine ⟨?_, ?_, i3⟩
    · cases x with
      | none => simpa using i1
      | some p =>
        simp only [List.filterMap_cons, id, List.nodup_cons]
        refine ⟨fun hp => ?_, i1⟩
        have := i2 p hp
        have h5 := (h4 p rfl).2.2
        simp only at h5
        omega
    · intro p hp
      cases x with
      | none =>
        simp only [List.filterMap_cons, id] at hp
        have := i2 p hp
        simp only at h1 h3
        omega
      | some q =>
        simp only [List.filterMap_cons, id, List.mem_cons] at hp
        rcases hp with rfl | hp
        · have := h4 _ rfl; exact ⟨this.1, this.2.1⟩
        · have := i2 p hp
          simp only at h1 h3
          omega

end Spec

/-- One call on an iterator over a window of the table. -/
theorem FuncDescIter.call_window (t : List Fde) (fres : List U8) (c : IterCall) (lo hi : Nat)
    (hl : lo ≤ hi) (hh : hi ≤ t.length) :
    let it : FuncDescIter o := ⟨(t.take hi).drop lo, fres⟩
    let r := dequeCall c (lo, hi)
    (it.call c).1 = r.1.bind (fun p => t[p]?.map fun fde =>
      ⟨fde, if c = .next then fres.drop fde.startFreOff.toNat else fres⟩) ∧
    (it.call c).2 = ⟨(t.take r.2.2).drop r.2.1, fres⟩ := by
  have hlen : ((t.take hi).drop lo).length = hi - lo := by simp; omega
  cases c with
  | next =>
    simp only [FuncDescIter.call, dequeCall]
    by_cases h : lo < hi
    · have hc : (t.take hi).drop lo = t[lo] :: (t.take hi).drop (lo + 1) := by
        rw [List.drop_eq_getElem_cons (by simp; omega)]
        simp
      rw [if_pos h, hc, FuncDescIter.next_cons]
      simp [entryOf, List.getElem?_eq_getElem (show lo < t.length by omega)]
    · rw [if_neg h, List.drop_eq_nil_of_le (by simp; omega), FuncDescIter.next_nil]
      simp
  | nth n =>
    simp only [FuncDescIter.call, dequeCall, FuncDescIter.nth, List.drop_drop]
    by_cases h : lo + n < hi
    · have hc : (t.take hi).drop (lo + n) = t[lo + n] :: (t.take hi).drop (lo + n + 1) := by
        rw [List.drop_eq_getElem_cons (by simp; omega)]
        simp
      rw [if_pos h, hc]
      simp [List.getElem?_eq_getElem (show lo + n < t.length by omega)]
    · rw [if_neg h, List.drop_eq_nil_of_le (by simp; omega)]
      simp
  | nextBack =>
    simp only [FuncDescIter.call, dequeCall, FuncDescIter.nextBack]
    by_cases h : lo < hi
    · have hg : ((t.take hi).drop lo).getLast? = some t[hi - 1] := by
        rw [List.getLast?_eq_getElem?, hlen, List.getElem?_drop, List.getElem?_take,
          if_pos (by omega), show lo + (hi - lo - 1) = hi - 1 by omega]
        exact List.getElem?_eq_getElem (by omega)
      have hd : ((t.take hi).drop lo).dropLast = (t.take (hi - 1)).drop lo := by
        rw [List.dropLast_eq_take, hlen, List.take_drop, List.take_take]
        congr 2; omega
      rw [if_pos h, hg]
      simp [hd, List.getElem?_eq_getElem (show hi - 1 < t.length by omega)]
    · rw [if_neg h, List.drop_eq_nil_of_le (by simp; omega)]
      simp

theorem FuncDescIter.calls_window (t : List Fde) (fres : List U8) (cs : List IterCall) (lo hi : Nat)
    (hl : lo ≤ hi) (hh : hi ≤ t.length) :
    let it : FuncDescIter o := ⟨(t.take hi).drop lo, fres⟩
    let r := deque cs (lo, hi)
    (∀ (k : Nat) (c : IterCall), cs[k]? = some c → (it.calls cs).1[k]? = some ((r.1[k]?.bind id).bind fun p =>
      t[p]?.map fun fde => FuncDescEntry.mk fde <| if c = .next then fres.drop fde.startFreOff.toNat else fres)) ∧
    (it.calls cs).1.length = cs.length ∧
    (it.calls cs).2 = ⟨(t.take r.2.2).drop r.2.1, fres⟩ ∧ r.2.1 ≤ r.2.2 ∧ r.2.2 ≤ t.length := by
  induction cs generalizing lo hi with
  | nil => simp [FuncDescIter.calls, deque, hl, hh]
  | cons c cs ih =>
    obtain ⟨a1, a2⟩ := FuncDescIter.call_window (o := o) t fres c lo hi hl hh
    obtain ⟨b1, b2, b3, _⟩ := dequeCall_spec c lo hi hl
    simp only at a1 a2 b1 b2 b3 ⊢
    rw [show deque (c :: cs) (lo, hi) = ((dequeCall c (lo, hi)).1 :: (deque cs (dequeCall c (lo, hi)).2).1,
      (deque cs (dequeCall c (lo, hi)).2).2) from rfl]
    rw [show ∀ it : FuncDescIter o, it.calls (c :: cs) = ((it.call c).1 :: (FuncDescIter.calls cs (it.call c).2).1,
      (FuncDescIter.calls cs (it.call c).2).2) from fun _ => rfl]
    simp only [a1, a2]
    obtain ⟨i1, i2, i3, i4, i5⟩ := ih _ _ b2 (by omega)
    refine ⟨?_, by simpa using i2, i3, i4, i5⟩
    intro k d hk
    cases k with
    | zero =>
      simp only [List.getElem?_cons_zero, Option.some.injEq] at hk ⊢
      subst hk
      simp
    | succ k =>
      simp only [List.getElem?_cons_succ] at hk ⊢
      exact i1 k d hk

/-- **C76.**  Whatever is called on the iterator of `fdes()`, in any order, the calls return the
functions at the positions that a double-ended iterator over the table returns: each call of `next` the
entry of that position, each other call its header (with all bytes of the FRE sub-section, see C07 and
C08).  No position is returned twice, and the length reported in the end is that of the positions
left. -/
theorem C76_mixed_iteration {s : List U8} {f : SFrame o} (h : SFrame.load o s = .ok (.ok f))
    (cs : List IterCall) :
    ∃ es, f.iter.collect = .ok es ∧ es.length = f.numFdes.toNat ∧
      (f.iter.calls cs).1.length = cs.length ∧
      (∀ (k : Nat) (c : IterCall), cs[k]? = some c →
        (f.iter.calls cs).1[k]? = some (((deque cs (0, f.numFdes.toNat)).1[k]?.bind id).bind fun p =>
          es[p]?.map fun e => if c = .next then e else { e with fres := f.fres })) ∧
      ((deque cs (0, f.numFdes.toNat)).1.filterMap id).Nodup ∧
      (∀ p ∈ (deque cs (0, f.numFdes.toNat)).1.filterMap id, p < f.numFdes.toNat) ∧
      (f.iter.calls cs).2.sizeHint =
        ((deque cs (0, f.numFdes.toNat)).2.2 - (deque cs (0, f.numFdes.toNat)).2.1,
          some ((deque cs (0, f.numFdes.toNat)).2.2 - (deque cs (0, f.numFdes.toNat)).2.1)) := by
  obtain ⟨es, hes, hlen, _, _⟩ := C06_fdes_enumerates h
  have hes' := hes
  rw [FuncDescIter.collect_eq] at hes'
  simp only [Rust.ok.injEq] at hes'
  have ht : f.iter.fdes.length = f.numFdes.toNat := by rw [← hlen, ← hes', List.length_map]
  have hw : f.iter = ⟨(f.iter.fdes.take f.numFdes.toNat).drop 0, f.iter.fres⟩ := by
    rw [← ht, List.take_length, List.drop_zero]
  obtain ⟨a1, a2, a3, a4, a5⟩ := FuncDescIter.calls_window (o := o) f.iter.fdes f.iter.fres cs 0
    f.numFdes.toNat (Nat.zero_le _) (by omega)
  rw [← hw] at a1 a2 a3
  obtain ⟨d1, d2, _⟩ := deque_spec cs 0 f.numFdes.toNat (Nat.zero_le _)
  refine ⟨es, hes, hlen, a2, ?_, d1, fun p hp => (d2 p hp).2, ?_⟩
  · intro k c hk
    rw [a1 k c hk, ← hes']
    simp only [List.getElem?_map, Option.map_map]
    congr 3
    funext p
    congr 1
    funext fde
    simp only [Function.comp_def, entryOf]
    split <;> rfl
  · rw [a3]
    simp only [FuncDescIter.sizeHint]
    have : ((List.take (deque cs (0, f.numFdes.toNat)).2.2 f.iter.fdes).drop
      (deque cs (0, f.numFdes.toNat)).2.1).length
      = (deque cs (0, f.numFdes.toNat)).2.2 - (deque cs (0, f.numFdes.toNat)).2.1 := by
      rw [List.length_drop, List.length_take]; omega
    rw [this]

/-- The last function, the first one, then nothing. -/
example : (deque [.nextBack, .next, .next, .nth 3] (0, 2)).1 = [some 1, some 0, none, none] ∧
    ∃ f : SFrame .little, SFrame.load .little Samples.v2 = .ok (.ok f) ∧ f.numFdes = 2 ∧
    ((f.iter.calls [.nextBack, .next, .next, .nth 3]).1.map (·.map (·.startAddress))
      = [some 0x1020, some 0x1000, none, none]) := by
  refine ⟨by decide, _, Samples.v2_loads, ?_, ?_⟩ <;> decide +kernel

/-! ### C77 -/

theorem decodeFre_shorter {fi : Nat} {fres rest : List U8} {v : FreView}
    (h : decodeFre o fi fres = .ok (v, rest)) : rest.length + 2 ≤ fres.length := by
  unfold decodeFre at h
  split at h
  · cases h
  · rename_i w hw
    have hw1 : 1 ≤ w := by
      unfold addrWidth at hw
      split at hw <;> simp_all <;> omega
    split at h
    · cases h
    · dsimp only at h
      split at h
      · cases h
      · split at h
        · cases h
        · split at h
          · cases h
          · injection h with h
            injection h with _ h
            subst h
            simp only [List.length_drop]
            omega

theorem readRows_work {fde : Fde} {n : Nat} {fres : List U8}
    {rs : List (Except ReadError (FrameRowEntry o))} (h : readRows o fde n fres = .ok rs) :
    2 * rs.length ≤ fres.length + 2 := by
  induction n generalizing fres rs with
  | zero => simp [readRows] at h; subst h; simp
  | succ n ih =>
    have hs := freLoad_spec o fde fres
    unfold readRows at h
    cases hd : decodeFre o fde.info.toNat fres with
    | error e =>
      rw [hd] at hs
      simp only at hs
      rw [hs] at h
      simp only [Rust.bind_ok, Rust.ok.injEq] at h
      subst h
      simp
    | ok p =>
      obtain ⟨v, rest⟩ := p
      rw [hd] at hs
      simp only at hs
      have hl := decodeFre_shorter hd
      split at hs
      · obtain ⟨r, hr, _⟩ := hs
        rw [hr] at h
        simp only [Rust.bind_ok, Rust.bind_eq_ok, Rust.ok.injEq] at h
        obtain ⟨rs', h1, h2⟩ := h
        have := ih h1
        subst h2
        simp only [List.length_cons]
        omega
      · rw [hs] at h
        simp at h

/-- **C77.**  Reading the rows of a function takes at most one step per two bytes of its rows, and one
more, whatever number of rows its header announces. -/
theorem C77_rows (e : FuncDescEntry o) (rs : List (Except ReadError (FrameRowEntry o)))
    (h : e.iter.collect = .ok rs) :
    rs.length ≤ e.fres.length / 2 + 1 ∧ rs.length ≤ e.fde.numFres.toNat := by
  rw [FuncDescEntry.collect_eq] at h
  have := readRows_work h
  exact ⟨by omega, (readRows_length h).1⟩

/-- **C77.**  A section of `n` bytes has at most `n / 17` functions, and each of them yields at most
`n / 2` rows and errors. -/
theorem C77_section {s : List U8} {f : SFrame o} (h : SFrame.load o s = .ok (.ok f)) :
    ∃ es, f.iter.collect = .ok es ∧ 28 + 17 * es.length ≤ s.length ∧
      ∀ e ∈ es, ∀ rs, e.iter.collect = .ok rs → 2 * rs.length ≤ s.length := by
  obtain ⟨_, _, _, _, _, _, _, _, hn, _, es, hes, hlen, _⟩ := C02_load_fields h
  obtain ⟨hl, rfl⟩ := load_ok_iff.1 h
  refine ⟨es, hes, ?_, ?_⟩
  · have h1 := hl.table
    have h2 : 17 ≤ fdeSize o s := by unfold fdeSize; split <;> omega
    have h3 : Spec.numFdes o s * 17 ≤ Spec.numFdes o s * fdeSize o s := Nat.mul_le_mul_left _ h2
    have h4 : 28 ≤ tablePos o s := by unfold tablePos bodyPos; omega
    have h5 : es.length = Spec.numFdes o s := hlen
    omega
  · intro e he rs hrs
    have h1 := (C77_rows e rs hrs).1
    rw [FuncDescIter.collect_eq] at hes
    simp only [Rust.ok.injEq] at hes
    rw [← hes, List.mem_map] at he
    obtain ⟨fde, _, rfl⟩ := he
    have h2 : (entryOf o (sectionOf o s).iter.fres fde).fres.length ≤ s.length - 28 := by
      simp only [entryOf, List.length_drop]
      have : (sectionOf o s).iter.fres = span s (fresPos o s) (Spec.freLen o s) := rfl
      rw [this]
      unfold span
      have h4 : 28 ≤ fresPos o s := by unfold fresPos bodyPos; omega
      simp only [List.length_take, List.length_drop]
      omega
    have := hl.header
    omega

/-- An FDE that announces 4294967295 rows. -/
def Samples.manyFde : Fde := .v2
  { startAddress := 0, size := 16, startFreOff := 0, numFres := 4294967295, info := 0, repSize := 0
    padding2 := 0 }

/-- With 5 bytes of rows there are two rows and an error; only the upper bound of the size hint
believes the header. -/
example : let e : FuncDescEntry .little := ⟨Samples.manyFde, [0, 1, 1, 1, 2]⟩
    e.iter.collect = .ok [.ok ⟨Samples.manyFde, 0, 1, [0, 0, 0]⟩, .ok ⟨Samples.manyFde, 1, 1, [0, 0, 0]⟩,
      .error .unexpectedEof] ∧ e.iter.sizeHint = (1, some 4294967295) := by
  decide +kernel

/-- A section of 78 bytes with two functions. -/
example : ∃ (f : SFrame .little) (es : List (FuncDescEntry .little)),
    SFrame.load .little Samples.v2 = .ok (.ok f) ∧ f.iter.collect = .ok es ∧ es.length = 2 ∧
    Samples.v2.length = 78 :=
  ⟨_, [Samples.e0, Samples.e1], Samples.v2_loads, by decide +kernel, rfl, by decide +kernel⟩

/-! ### C78 -/

namespace Spec

/-- The bytes of a row that was read: start, info byte, offsets. -/
def readLength (fde : Fde) (r : FrameRowEntry o) : Nat :=
  (addrWidth fde.info.toNat).getD 0 + 1
    + (offsetWidth r.info.toNat).getD 0 * (FreInfo.offsetCount r.info).toNat

end Spec

/-- `a` and `b` have the same bytes at the positions below `n`. -/
def SameBelow (n : Nat) (a b : List U8) : Prop := ∀ i, i < n → byteAt a i = byteAt b i

theorem SameBelow.readU16 {n i : Nat} {a b : List U8} (h : SameBelow n a b) (hi : i + 2 ≤ n) :
    readU16 o a i = readU16 o b i := by
  unfold Verif.readU16; rw [h i (by omega), h (i + 1) (by omega)]

theorem SameBelow.readU32 {n i : Nat} {a b : List U8} (h : SameBelow n a b) (hi : i + 4 ≤ n) :
    readU32 o a i = readU32 o b i := by
  unfold Verif.readU32
  rw [h i (by omega), h (i + 1) (by omega), h (i + 2) (by omega), h (i + 3) (by omega)]

theorem SameBelow.drop {n m k : Nat} {a b : List U8} (h : SameBelow n a b) (hk : k + m ≤ n) :
    SameBelow m (a.drop k) (b.drop k) := by
  intro i hi
  rw [byteAt_drop, byteAt_drop, h _ (by omega)]

theorem SameBelow.of_take {n : Nat} {a b : List U8} (h : a.take n = b.take n) (ha : n ≤ a.length) :
    SameBelow n a b ∧ n ≤ b.length := by
  have hl := congrArg List.length h
  simp only [List.length_take] at hl
  refine ⟨fun i hi => ?_, by omega⟩
  have := congrArg (fun l => l[i]?) h
  simp only [List.getElem?_take, hi, if_true] at this
  simp only [byteAt, List.getD_eq_getElem?_getD, this]

/-- The width of the start address. -/
def FreType.width : FreType → Nat
  | .addr1 => 1
  | .addr2 => 2
  | .addr4 => 4
  | _ => 0

/-- The width of an offset. -/
def FreOffset.width : FreOffset → Nat
  | .b1 => 1
  | .b2 => 2
  | .b4 => 4
  | .reserved3 => 0

theorem fretype_width (b : U8) : (FdeInfo.fretype b).width = (addrWidth b.toNat).getD 0 := by
  revert b; decide +kernel

theorem offsetSize_width (b : U8) : (FreInfo.offsetSize b).width = (offsetWidth b.toNat).getD 0 := by
  revert b; decide +kernel

theorem loadHead_local {a : List U8} {ty : FreType} {st : U32} {info : U8} {rest : List U8}
    (h : FrameRowEntry.loadHead o a ty = some (st, info, rest)) :
    ty.width + 1 ≤ a.length ∧ rest = a.drop (ty.width + 1) ∧
    ∀ b, ty.width + 1 ≤ b.length → SameBelow (ty.width + 1) a b →
      FrameRowEntry.loadHead o b ty = some (st, info, b.drop (ty.width + 1)) := by
  cases ty <;> simp only [FrameRowEntry.loadHead, FreType.width, getFrom] at h ⊢ <;>
    first
    | (cases h; done)
    | (split at h
       · cases h
       · rename_i hlt
         rw [if_pos (by omega)] at h
         simp only [Option.map_some, Option.some.injEq, Prod.mk.injEq] at h
         obtain ⟨h1, h2, h3⟩ := h
         refine ⟨by omega, h3.symm, fun b hb hs => ?_⟩
         rw [if_neg (by omega), if_pos (by omega)]
         simp only [Option.map_some, Option.some.injEq, Prod.mk.injEq, and_true]
         first
         | exact ⟨by rw [← h1, hs 0 (by omega)], by rw [← h2, hs _ (by omega)]⟩
         | exact ⟨by rw [← h1, hs.readU16 (by omega)], by rw [← h2, hs _ (by omega)]⟩
         | exact ⟨by rw [← h1, hs.readU32 (by omega)], by rw [← h2, hs _ (by omega)]⟩)

theorem sliceFromPrefix_local {α : Type} {sz count : Nat} {f : List U8 → α} {a : List U8}
    {l : List α} {rest : List U8} (h : sliceFromPrefix sz f a count = some (l, rest))
    (hf : ∀ x y, SameBelow sz x y → f x = f y) :
    sz * count ≤ a.length ∧ rest = a.drop (sz * count) ∧
    ∀ b, sz * count ≤ b.length → SameBelow (sz * count) a b →
      sliceFromPrefix sz f b count = some (l, b.drop (sz * count)) := by
  unfold sliceFromPrefix at h ⊢
  split at h
  · cases h
  · simp only [Option.some.injEq, Prod.mk.injEq] at h
    obtain ⟨h1, h2⟩ := h
    refine ⟨by omega, h2.symm, fun b hb hs => ?_⟩
    rw [if_neg (by omega)]
    simp only [Option.some.injEq, Prod.mk.injEq, and_true]
    rw [← h1]
    apply List.map_congr_left
    intro i hi
    refine (hf _ _ (hs.drop ?_)).symm
    have : i + 1 ≤ count := List.mem_range.1 hi
    have := Nat.mul_le_mul_left sz this
    rw [Nat.mul_add] at this
    omega

theorem loadOffsets_local {a : List U8} {count : Nat} {ty : FreOffset} {l : List I32} {rest : List U8}
    (h : FrameRowEntry.loadOffsets o a count ty = .ok (l, rest)) :
    ty.width * count ≤ a.length ∧ rest = a.drop (ty.width * count) ∧
    ∀ b, ty.width * count ≤ b.length → SameBelow (ty.width * count) a b →
      FrameRowEntry.loadOffsets o b count ty = .ok (l, b.drop (ty.width * count)) := by
  cases ty <;> simp only [FrameRowEntry.loadOffsets, FreOffset.width] at h ⊢
  · split at h
    · cases h
    · rename_i l' rest' hsl
      injection h with h
      injection h with h1 h2
      subst h1 h2
      obtain ⟨a1, a2, a3⟩ := sliceFromPrefix_local hsl fun x y hs => by rw [hs 0 (by omega)]
      exact ⟨a1, a2, fun b hb hs => by rw [a3 b hb hs]⟩
  · split at h
    · cases h
    · rename_i l' rest' hsl
      injection h with h
      injection h with h1 h2
      subst h1 h2
      obtain ⟨a1, a2, a3⟩ := sliceFromPrefix_local hsl fun x y hs => by rw [hs.readU16 (by omega)]
      exact ⟨a1, a2, fun b hb hs => by rw [a3 b hb hs]⟩
  · split at h
    · cases h
    · rename_i l' rest' hsl
      injection h with h
      injection h with h1 h2
      subst h1 h2
      obtain ⟨a1, a2, a3⟩ := sliceFromPrefix_local hsl fun x y hs => by rw [hs.readU32 (by omega)]
      exact ⟨a1, a2, fun b hb hs => by rw [a3 b hb hs]⟩
  · cases h

/-- Reading a row depends on the bytes of that row only. -/
theorem load_local {fde : Fde} {a : List U8} {r : FrameRowEntry o} {rest : List U8}
    (h : FrameRowEntry.load o fde a = .ok (.ok (r, rest))) :
    readLength fde r ≤ a.length ∧ rest = a.drop (readLength fde r) ∧
    ∀ b, readLength fde r ≤ b.length → SameBelow (readLength fde r) a b →
      FrameRowEntry.load o fde b = .ok (.ok (r, b.drop (readLength fde r))) := by
  have hw := fretype_width fde.info
  unfold FrameRowEntry.load at h ⊢
  unfold readLength
  rw [← hw]
  split at h <;> first | (cases h; done) | skip
  rename_i ty hty
  split at h
  · cases h
  · rename_i st info offs hh
    obtain ⟨a1, a2, a3⟩ := loadHead_local hh
    split at h
    · cases h
    · rename_i hc
      split at h
      · cases h
      · rename_i offsets remaining ho
        obtain ⟨b1, b2, b3⟩ := loadOffsets_local ho
        split at h
        · rename_i hst
          simp only [Rust.ok.injEq, Except.ok.injEq, Prod.mk.injEq] at h
          obtain ⟨h1, h2⟩ := h
          subst h1 h2
          simp only
          rw [← offsetSize_width]
          subst a2
          rw [List.length_drop] at b1
          refine ⟨by omega, by rw [b2, List.drop_drop], fun b hb hs => ?_⟩
          rw [a3 b (by omega) (fun i hi => hs i (by omega))]
          simp only
          rw [if_neg hc, b3 (b.drop _) (by rw [List.length_drop]; omega) (hs.drop (by omega))]
          simp only
          rw [if_pos hst, List.drop_drop]
        · cases h

theorem readRows_local {fde : Fde} {n : Nat} {a b : List U8} {rs : List (FrameRowEntry o)}
    (h : readRows o fde n a = .ok (rs.map .ok))
    (hb : a.take (rs.map (readLength fde)).sum = b.take (rs.map (readLength fde)).sum) :
    (rs.map (readLength fde)).sum ≤ a.length ∧ readRows o fde n b = .ok (rs.map .ok) := by
  induction n generalizing a b rs with
  | zero =>
    simp only [readRows, Rust.ok.injEq] at h ⊢
    refine ⟨?_, h⟩
    cases rs with
    | nil => simp
    | cons r rs => simp at h
  | succ n ih =>
    unfold readRows at h ⊢
    rw [Rust.bind_eq_ok] at h
    obtain ⟨x, hx, h⟩ := h
    cases x with
    | error e =>
      simp only [Rust.ok.injEq] at h
      cases rs <;> simp at h
    | ok p =>
      obtain ⟨r, rest⟩ := p
      rw [Rust.bind_eq_ok] at h
      obtain ⟨rs', h1, h2⟩ := h
      simp only [Rust.ok.injEq] at h2
      cases rs with
      | nil => simp at h2
      | cons r' rs =>
        simp only [List.map_cons, List.cons.injEq, Except.ok.injEq] at h2
        obtain ⟨rfl, rfl⟩ := h2
        obtain ⟨l1, l2, l3⟩ := load_local hx
        simp only [List.map_cons, List.sum_cons] at hb ⊢
        subst l2
        have hlen := congrArg List.length hb
        simp only [List.length_take] at hlen
        have hb1 : a.take (readLength fde r) = b.take (readLength fde r) := by
          have := congrArg (List.take (readLength fde r)) hb
          simpa only [List.take_take, Nat.min_eq_left (Nat.le_add_right _ _)] using this
        have hb2 : (a.drop (readLength fde r)).take (rs.map (readLength fde)).sum
            = (b.drop (readLength fde r)).take (rs.map (readLength fde)).sum := by
          have := congrArg (List.drop (readLength fde r)) hb
          simpa only [List.drop_take, Nat.add_sub_cancel_left] using this
        obtain ⟨i1, i2⟩ := ih h1 hb2
        rw [List.length_drop] at i1
        obtain ⟨s1, s2⟩ := SameBelow.of_take hb1 l1
        rw [l3 b s2 s1]
        refine ⟨by omega, ?_⟩
        simp only [Rust.bind_ok, i2]

/-- **C78.**  The rows of a function depend on its FDE and on the bytes of these rows only: they lie
in the FRE sub-section from the start offset on, and any entry with the same FDE and the same bytes
there, whatever comes after or before them, has the same rows. -/
theorem C78_rows_local (e e' : FuncDescEntry o) (rs : List (FrameRowEntry o))
    (h : e.iter.collect = .ok (rs.map .ok)) (hf : e'.fde = e.fde)
    (hb : e'.fres.take (rs.map (readLength e.fde)).sum = e.fres.take (rs.map (readLength e.fde)).sum) :
    (rs.map (readLength e.fde)).sum ≤ e.fres.length ∧ e'.iter.collect = .ok (rs.map .ok) := by
  rw [FuncDescEntry.collect_eq] at h ⊢
  rw [hf]
  exact readRows_local h hb.symm

/-- **C78.**  In terms of sections: if function `i` of one section and function `j` of another one have
equal FDEs and the bytes of the rows of the first one are found in the second section at the place the
FDE points at, then these functions have the same rows, whatever else the sections contain. -/
theorem C78_sections_local {s s' : List U8} {f f' : SFrame o} {es es' : List (FuncDescEntry o)}
    {e e' : FuncDescEntry o} {i j : Nat} {rs : List (FrameRowEntry o)}
    (h : SFrame.load o s = .ok (.ok f)) (h' : SFrame.load o s' = .ok (.ok f'))
    (hes : f.iter.collect = .ok es) (hes' : f'.iter.collect = .ok es')
    (he : es[i]? = some e) (he' : es'[j]? = some e') (hfde : e'.fde = e.fde)
    (hr : e.iter.collect = .ok (rs.map .ok))
    (hlen : e.fde.startFreOff.toNat + (rs.map (readLength e.fde)).sum ≤ Spec.freLen o s')
    (hb : span s' (fresPos o s' + e.fde.startFreOff.toNat) (rs.map (readLength e.fde)).sum
      = span s (fresPos o s + e.fde.startFreOff.toNat) (rs.map (readLength e.fde)).sum) :
    e'.iter.collect = .ok (rs.map .ok) := by
  obtain ⟨hl, rfl⟩ := load_ok_iff.1 h
  obtain ⟨hl', rfl⟩ := load_ok_iff.1 h'
  rw [FuncDescIter.collect_eq] at hes hes'
  simp only [Rust.ok.injEq] at hes hes'
  subst hes hes'
  rw [List.getElem?_map, Option.map_eq_some_iff] at he he'
  obtain ⟨fde, _, rfl⟩ := he
  obtain ⟨fde', _, rfl⟩ := he'
  have hfe : fde' = fde := hfde
  subst hfe
  refine (C78_rows_local _ _ rs hr hfde ?_).2
  have hle := (C78_rows_local _ _ rs hr rfl rfl).1
  generalize (rs.map (readLength (entryOf o (sectionOf o s).iter.fres fde').fde)).sum = n at *
  have key : ∀ t : List U8, fde'.startFreOff.toNat + n ≤ Spec.freLen o t →
      ((entryOf o (sectionOf o t).iter.fres fde').fres).take n
        = span t (fresPos o t + fde'.startFreOff.toNat) n := by
    intro t ht
    simp only [entryOf]
    rw [show (sectionOf o t).iter.fres = span t (fresPos o t) (Spec.freLen o t) from rfl]
    unfold span
    rw [List.drop_take, List.drop_drop, List.take_take, Nat.min_eq_left (by omega)]
  by_cases hn : n = 0
  · subst hn; simp
  rw [key s' hlen, key s ?_]
  · exact hb
  · simp only [entryOf, List.length_drop] at hle
    rw [show (sectionOf o s).iter.fres = span s (fresPos o s) (Spec.freLen o s) from rfl] at hle
    unfold span at hle
    simp only [List.length_take] at hle
    omega

/-- The rows of function 0 of the sample take 7 bytes; whatever follows, they are the same. -/
example : ([Samples.r00, Samples.r04].map (readLength Samples.fde0)).sum = 7 ∧
    ∀ rest, (FuncDescEntry.mk (o := .little) Samples.fde0 ([0, 3, 8, 4, 5, 16, 0xF0] ++ rest)).iter.collect
      = .ok [.ok Samples.r00, .ok Samples.r04] := by
  have h7 : ([Samples.r00, Samples.r04].map (readLength Samples.fde0)).sum = 7 := by decide +kernel
  refine ⟨h7, fun rest => ?_⟩
  refine (C78_rows_local Samples.e0 ⟨Samples.fde0, [0, 3, 8, 4, 5, 16, 0xF0] ++ rest⟩ [Samples.r00, Samples.r04] Samples.e0_rows rfl ?_).2
  rw [show Samples.e0.fde = Samples.fde0 from rfl, h7]
  rfl

/-- Function 1 of the sample in two sections that differ in the rows of function 0. -/
example : ∃ f : SFrame .little, SFrame.load .little (Samples.v2.set 70 9) = .ok (.ok f) ∧
    f.iter.collect = .ok [{ Samples.e0 with fres := [0, 3, 9, 4, 5, 16, 0xF0, 0, 3, 24] }, Samples.e1] ∧
    Samples.e1.iter.collect = .ok [.ok Samples.r1] := by
  refine ⟨{ Samples.v2F with fres := [0, 3, 9, 4, 5, 16, 0xF0, 0, 3, 24] }, ?_, ?_, ?_⟩ <;> decide +kernel

/-! ### C79 -/

/-- What a program learns about a row, from what the bytes say and the fixed offsets. -/
def readingOf (ra fp : Option I8) (v : FreView) : RowReading :=
  let at_ (i : Nat) : Except ReadError I32 := match v.offsets[i]? with
    | some x => .ok (BitVec.ofInt 32 x)
    | none => .error .missingFreOffset
  { start := BitVec.ofNat 32 v.start
    base := v.base
    mangled := v.mangled
    cfa := at_ 0
    ra := match ra with | some x => .ok (x.signExtend 32) | none => at_ 1
    fp := match fp with
      | some x => .ok (x.signExtend 32)
      | none => match ra with | some _ => at_ 1 | none => at_ 2 }

theorem readingOf_view (s : SFrame o) (r : FrameRowEntry o) :
    readingOf s.fixedRaOffset s.fixedFpOffset r.view =
      { start := r.startAddressOffset, base := r.baseReg, mangled := r.mangled,
        cfa := r.cfaOffset, ra := r.raOffset s, fp := r.fpOffset s } := by
  have hat : ∀ i : Nat, (match r.view.offsets[i]? with
      | some x => Except.ok (BitVec.ofInt 32 x)
      | none => .error ReadError.missingFreOffset) = match r.storedOffsets[i]? with
      | some x => .ok x
      | none => .error .missingFreOffset := by
    intro i
    simp only [FrameRowEntry.view, List.getElem?_map]
    cases r.storedOffsets[i]? <;> simp
  unfold readingOf
  simp only [hat]
  simp only [FrameRowEntry.cfaOffset, FrameRowEntry.raOffset, FrameRowEntry.fpOffset, RowReading.mk.injEq]
  refine ⟨by simp [FrameRowEntry.view], by trivial, by trivial, by trivial, ?_, ?_⟩
  · cases s.fixedRaOffset <;> trivial
  · cases s.fixedFpOffset <;> cases s.fixedRaOffset <;> trivial

/-- What reading a function gives, from what its bytes say. -/
def readingsOf (size : U32) (ra fp : Option I8) :
    List (Except ReadError FreView) → Rust (List (Except ReadError RowReading))
  | [] => .ok []
  | .error e :: _ => .ok [.error e]
  | .ok v :: l =>
    if v.start < size.toNat then (readingsOf size ra fp l).bind fun rs => .ok (.ok (readingOf ra fp v) :: rs)
    else .panic .assertion

theorem readRows_readings (s : SFrame o) (fde : Fde) (n : Nat) (fres : List U8) :
    (readRows o fde n fres).bind (fun rs => .ok (rs.map (·.map fun r =>
      ({ start := r.startAddressOffset, base := r.baseReg, mangled := r.mangled,
         cfa := r.cfaOffset, ra := r.raOffset s, fp := r.fpOffset s } : RowReading))))
      = readingsOf fde.size s.fixedRaOffset s.fixedFpOffset (decodeFres o fde.info.toNat n fres) := by
  induction n generalizing fres with
  | zero => rfl
  | succ n ih =>
    have hs := freLoad_spec o fde fres
    unfold readRows decodeFres
    cases hd : decodeFre o fde.info.toNat fres with
    | error e =>
      rw [hd] at hs
      simp only at hs
      rw [hs]
      rfl
    | ok p =>
      obtain ⟨v, rest⟩ := p
      rw [hd] at hs
      simp only at hs ⊢
      unfold readingsOf
      split at hs
      · rename_i hlt
        obtain ⟨r, hr, hv, _⟩ := hs
        rw [hr, if_pos hlt, ← ih rest, ← hv, readingOf_view]
        simp only [Rust.bind_ok]
        cases readRows o fde n rest <;> rfl
      · rename_i hlt
        rw [hs, if_neg hlt]
        rfl

theorem sequence_bind {α β γ : Type} (f : α → Rust β) (g : β → γ) (l : List α) :
    (sequence (l.map f)).bind (fun xs => .ok (xs.map g))
      = sequence (l.map fun a => (f a).bind fun x => .ok (g x)) := by
  induction l with
  | nil => rfl
  | cons a l ih =>
    simp only [List.map_cons, sequence]
    rw [← ih]
    cases f a with
    | ok x =>
      simp only [Rust.bind_ok]
      cases sequence (l.map f) <;> rfl
    | panic p => rfl
    | diverge => rfl

/-- What reading a built section gives, in terms of the builder. -/
theorem readAll_image (o : Endian) (b : SFrameBuilder) (hb : BuilderInv b) (hfits : Fits o b) :
    readAll o (image o b) = (sequence ((functions b).map fun f =>
      readingsOf f.size (b.options.fixedRa.map (·.val)) (b.options.fixedFp.map (·.val))
        ((rows f).map fun r => .ok (rowView r)))).bind fun rs => .ok (.ok rs) := by
  obtain ⟨es, hes, hlen, hget⟩ := readBack_entries o b hfits
  obtain ⟨h1, h2⟩ := readBack_fixed (o := o) b
  unfold readAll
  rw [load_image o b hfits, Rust.bind_ok]
  simp only [hes, Rust.bind_ok]
  have key : (fun rows : List (List (Except ReadError (FrameRowEntry o))) =>
      Rust.ok (Except.ok (ε := ReadError) (rows.map (·.map (·.map fun r =>
        ({ start := r.startAddressOffset, base := r.baseReg, mangled := r.mangled, cfa := r.cfaOffset,
           ra := r.raOffset (readBack o b), fp := r.fpOffset (readBack o b) } : RowReading))))))
      = fun rows => (Rust.ok (rows.map (·.map (·.map fun r =>
        ({ start := r.startAddressOffset, base := r.baseReg, mangled := r.mangled, cfa := r.cfaOffset,
           ra := r.raOffset (readBack o b), fp := r.fpOffset (readBack o b) } : RowReading))))).bind
        fun rs => .ok (.ok rs) := rfl
  rw [key]
  have assoc : ∀ {α β γ : Type} (x : Rust α) (f : α → Rust β) (g : β → Rust γ),
      x.bind (fun a => (f a).bind g) = (x.bind f).bind g := by
    intro α β γ x f g; cases x <;> rfl
  rw [assoc, sequence_bind]
  congr 2
  apply List.ext_getElem?
  intro i
  simp only [List.getElem?_map]
  by_cases hi : i < (functions b).length
  · obtain ⟨f, hf⟩ : ∃ f, (functions b)[i]? = some f := ⟨_, List.getElem?_eq_getElem hi⟩
    obtain ⟨rest, hr⟩ := hget i f hf
    rw [hf, hr]
    simp only [Option.map_some, Option.some.injEq]
    rw [FuncDescEntry.collect_eq, readRows_readings, h1, h2, built_decodes hb hfits hf rfl]
    rfl
  · have hl := functions_length b
    rw [List.getElem?_eq_none (l := es) (by omega), List.getElem?_eq_none (l := functions b) (by omega)]
    rfl

/-- **C79.**  The byte order makes no difference: building a section in either byte order fails in the
same way or gives sections of the same length, and each of them, loaded in its byte order, has the same
header, the same functions and the same rows. -/
theorem C79_byte_order (dbg dbg' : Bool) (o o' : Endian) (b : SFrameBuilder)
    (hb : SFrameBuilder.Reachable dbg' b) :
    (∀ p, b.build dbg o = .panic p → b.build dbg o' = .panic p) ∧
    (∀ e, b.build dbg o = .ok (.error e) → b.build dbg o' = .ok (.error e)) ∧
    ∀ out, b.build dbg o = .ok (.ok out) → ∃ out', b.build dbg o' = .ok (.ok out') ∧
      out'.length = out.length ∧ readAll o' out' = readAll o out ∧
      ∃ s s' es es', SFrame.load o out = .ok (.ok s) ∧ SFrame.load o' out' = .ok (.ok s') ∧
        s'.version = s.version ∧ s'.flags = s.flags ∧ s'.abi = s.abi ∧
        s'.fixedFpOffset = s.fixedFpOffset ∧ s'.fixedRaOffset = s.fixedRaOffset ∧ s'.aux = s.aux ∧
        s'.numFdes = s.numFdes ∧ s'.numFres = s.numFres ∧
        s.iter.collect = .ok es ∧ s'.iter.collect = .ok es' ∧ es'.map (·.fde) = es.map (·.fde) := by
  have hlens : (chunks o' b.fdes.values).length = (chunks o b.fdes.values).length := by
    rw [values_functions, chunks_length o' fun f hf => (hb.inv.function hf).1,
      chunks_length o fun f hf => (hb.inv.function hf).1]
  rcases build_cases dbg o b hb.inv with ⟨h1, h2⟩ | ⟨h0, ⟨h1, h2⟩ | ⟨h1, h2⟩ | ⟨h1, h2, h3⟩⟩ <;>
    rcases build_cases dbg o' b hb.inv with ⟨g1, g2⟩ | ⟨g0, ⟨g1, g2⟩ | ⟨g1, g2⟩ | ⟨g1, g2, g3⟩⟩ <;>
    first
    | exact absurd h2 g0
    | exact absurd g2 h0
    | exact absurd h2 g2.1
    | exact absurd h2 g2
    | exact absurd g2 h2.1
    | exact absurd g2 h2
    | exact absurd g3 h2.2
    | exact absurd h3 g2.2
    | (rw [h1, g1]; exact ⟨fun _ h => h, fun _ h => h, fun _ h => (by cases h)⟩)
    | skip
  rw [h1, g1]
  refine ⟨fun _ h => (by cases h), fun _ h => (by cases h), fun out h => ?_⟩
  injection h with h
  injection h with h
  subst h
  have hfits := (fits_iff o hb.inv).2 h3
  have gfits := (fits_iff o' hb.inv).2 g3
  refine ⟨_, rfl, ?_, ?_, readBack o b, readBack o' b, _, _, load_image o b hfits, load_image o' b gfits,
    rfl, rfl, rfl, ?_, ?_, rfl, rfl, rfl, FuncDescIter.collect_eq _, FuncDescIter.collect_eq _, ?_⟩
  · rw [image_length, image_length, hlens]
  · rw [readAll_image o b hb.inv hfits, readAll_image o' b hb.inv gfits]
  · rw [(readBack_fixed (o := o') b).1, (readBack_fixed (o := o) b).1]
  · rw [(readBack_fixed (o := o') b).2, (readBack_fixed (o := o) b).2]
  · simp only [List.map_map]
    have he : ∀ (o : Endian) (l : List Fde) (fres : List U8),
        l.map ((fun e : FuncDescEntry o => e.fde) ∘ entryOf o fres) = l := by
      intro o l fres
      conv => rhs; rw [← List.map_id l]
      rfl
    rw [he, he]
    simp only [readBack, SFrame.iter, FdeList.toList]
    congr 1
    apply List.ext_getElem?
    intro i
    rw [fdesOf_getElem?, fdesOf_getElem?]
    congr 1
    funext f
    have : chunkPos o' b.fdes.values i = chunkPos o b.fdes.values i := by
      unfold chunkPos
      have hi : ∀ f ∈ (b.fdes.values.take i), FdeInv f := fun f hf =>
        (hb.inv.function (List.mem_of_mem_take hf)).1
      rw [chunks_length o' hi, chunks_length o hi]
    rw [this]

/-- The sample section in both byte orders. -/
example : ∃ out out', Samples.sec.build true .little = .ok (.ok out) ∧
    Samples.sec.build true .big = .ok (.ok out') ∧ out ≠ out' ∧ out.length = out'.length ∧
    readAll .little out = readAll .big out' :=
  ⟨image .little Samples.sec, image .big Samples.sec, by decide +kernel, by decide +kernel,
    by decide +kernel, by decide +kernel, by decide +kernel⟩

end Verif
