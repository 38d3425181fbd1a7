import Verif.Proofs.Lookup
import Verif.Spec.Lookup
import Verif.Props.Samples
/-!
# Looking up functions and rows by address: C13–C20
-/

namespace Verif
open Spec

variable {o : Endian}

/-- **C13** `contains` is the half-open range; the debug build panics exactly on overflow of
`a - start`. -/
theorem C13_contains_exact (dbg : Bool) (e : FuncDescEntry o) (a : I32) :
    (NoOverflow dbg e a → e.contains dbg a = .ok (decide (Covers e a))) ∧
    (¬ NoOverflow dbg e a → (e.contains dbg a).Panics) := by
  refine ⟨fun h => contains_eq e a h, fun h => ?_⟩
  unfold NoOverflow at h
  obtain ⟨hd, h⟩ := Classical.not_imp.1 h
  subst hd
  have h1 := toInt_bounds a
  have h2 := toInt_bounds e.startAddress
  refine ⟨.overflow, ?_⟩
  unfold FuncDescEntry.contains
  simp only
  rw [if_neg (by omega), subI32_overflow (by omega)]
  rfl

/-- All four situations occur: inside, at the end, and an overflowing difference in both profiles. -/
example : Samples.e0.contains true 0x101F = .ok true ∧ Samples.e0.contains true 0x1020 = .ok false ∧
    (let e : FuncDescEntry .little := ⟨.v1 ⟨0x80000000, 0xFFFFFFFF, 0, 0, 0⟩, []⟩
     e.contains true 0 = .panic .overflow ∧ e.contains false 0 = .ok true ∧
       e.contains false 0x7FFFFFFF = .ok false) := by decide +kernel

/-- **C14** A function found for an address is in the table (same header as an entry of `fdes()`)
and covers the address: for either binary search algorithm, either build profile, and any table and
flags. -/
theorem C14_found_covers {alg : SearchAlg} {dbg : Bool} {s : SFrame o} {a : I32}
    {e : FuncDescEntry o} (h : s.fdeForAddress alg dbg a = .ok (some e)) :
    ∃ es, s.iter.collect = .ok es ∧ (∃ e' ∈ es, e.fde = e'.fde) ∧ Covers e a := by
  refine ⟨_, FuncDescIter.collect_eq _, ?_⟩
  by_cases hs : Flags.contains s.flags Flags.FDE_SORTED = true
  · rw [fdeForAddress_sorted _ _ _ _ hs, Rust.bind_eq_ok] at h
    obtain ⟨r, hr, h⟩ := h
    cases r with
    | error _ => simp at h
    | ok i =>
      obtain ⟨fde, hfde, hc⟩ := binarySearchBy_found hr
      simp only [Rust.ok.injEq] at h
      have hd : s.fdes.toList.drop i = fde :: s.fdes.toList.drop (i + 1) := by
        obtain ⟨hi, rfl⟩ := List.getElem?_eq_some_iff.1 hfde
        exact List.drop_eq_getElem_cons hi
      unfold FuncDescIter.nth SFrame.iter at h
      rw [hd] at h
      simp only [Option.some.injEq] at h
      subst h
      refine ⟨⟨entryOf o s.fres fde, List.mem_map_of_mem (List.mem_of_getElem? hfde), rfl⟩, ?_⟩
      exact searchCmp_eq_eq hc
  · unfold SFrame.fdeForAddress at h
    rw [if_pos hs] at h
    obtain ⟨hm, hc⟩ := FuncDescIter.findFuel_found _ _ _ _ _ h
    exact ⟨⟨e, hm, rfl⟩, contains_true hc⟩

example : ∃ s, SFrame.load .little Samples.v2 = .ok (.ok s) ∧
    s.fdeForAddress .v152 true 0x1025 = .ok (some Samples.e1bad) :=
  ⟨_, Samples.v2_loads, by decide +kernel⟩

/-- **C15** Without the sorted flag, the lookup returns the first function of `fdes()` that covers
the address, rows included, and `None` if there is none. -/
theorem C15_unsorted_lookup {alg : SearchAlg} {dbg : Bool} {s : SFrame o} {a : I32}
    {es : List (FuncDescEntry o)} (hes : s.iter.collect = .ok es)
    (hs : s.flags.toNat % 2 = 0) (hd : ∀ e ∈ es, NoOverflow dbg e a) :
    s.fdeForAddress alg dbg a = .ok (es.find? fun e => decide (Covers e a)) := by
  have hs' : ¬ Flags.contains s.flags Flags.FDE_SORTED = true := by
    revert hs; generalize s.flags = b; revert b; decide
  unfold SFrame.fdeForAddress
  rw [if_pos hs']
  rw [FuncDescIter.collect_eq] at hes
  simp only [Rust.ok.injEq] at hes
  subst hes
  refine FuncDescIter.findFuel_eq _ _ _ _ (fun fde hm => ?_) _ (Nat.le_refl _)
  exact contains_eq _ _ (hd _ (List.mem_map_of_mem hm))

example : ∃ s, SFrame.load .little Samples.v2unsorted = .ok (.ok s) ∧ s.flags.toNat % 2 = 0 ∧
    s.iter.collect = .ok [Samples.e0, Samples.e1] ∧
    (∀ e ∈ [Samples.e0, Samples.e1], NoOverflow true e 0x1025) ∧
    s.fdeForAddress .v152 true 0x1025 = .ok (some Samples.e1) ∧
    s.fdeForAddress .v152 true 0x1030 = .ok none := by
  refine ⟨{ Samples.v2F with preamble := { magic := 0xDEE2, version := 2, flags := 0 } }, ?_⟩
  refine ⟨?_, ?_, ?_, ?_, ?_, ?_⟩
  case refine_4 =>
    intro e he
    simp only [List.mem_cons, List.not_mem_nil, or_false] at he
    rcases he with rfl | rfl <;> (intro _; decide +kernel)
  all_goals decide +kernel

/-- **C16** is false: in a sorted section with disjoint functions, an address inside a function is
not found (the comparator of read.rs:183-194 has its arguments in the wrong order). -/
theorem C16_sorted_lookup_misses :
    ∃ (b : List U8) (s : SFrame .little) (es : List (FuncDescEntry .little)) (a : I32),
      SFrame.load .little b = .ok (.ok s) ∧ s.flags.toNat % 2 = 1 ∧ s.iter.collect = .ok es ∧
      SortedDisjoint es ∧ (∃ e ∈ es, Covers e a) ∧
      ∀ alg dbg, s.fdeForAddress alg dbg a = .ok none := by
  refine ⟨Samples.v2, _, [Samples.e0, Samples.e1], 0x1000, Samples.v2_loads, by decide +kernel,
    by decide +kernel, ?_, ⟨Samples.e0, by simp, by decide +kernel⟩, ?_⟩
  · simp [SortedDisjoint]; decide +kernel
  · intro alg dbg
    cases alg <;> cases dbg <;> decide +kernel

theorem sortedTable_cmp {dbg : Bool} {s : SFrame o} {a : I32} {es : List (FuncDescEntry o)}
    (hes : s.iter.collect = .ok es) (hsd : SortedDisjoint es) (hd : ∀ e ∈ es, NoOverflow dbg e a)
    {k : Nat} {e : FuncDescEntry o} (hk : es[k]? = some e) (hc : Covers e a) :
    ∃ g : Fde → Ordering,
      (∀ x ∈ s.fdes.toList, SFrame.searchCmp dbg a x.startAddress x.size = .ok (g x)) ∧
      (∀ (i : Nat) x, s.fdes.toList[i]? = some x →
        g x = if i < k then .gt else if i = k then .eq else .lt) ∧
      s.fdes.toList.length = es.length := by
  rw [FuncDescIter.collect_eq] at hes
  simp only [Rust.ok.injEq] at hes
  have hlist : s.iter.fdes = s.fdes.toList := rfl
  rw [hlist] at hes
  have hsd : ∀ (i j : Nat) e e', i < j → es[i]? = some e → es[j]? = some e' →
      e.startAddress.toInt + e.size.toNat ≤ e'.startAddress.toInt := by
    intro i j e e' hij hi hj
    obtain ⟨hi', rfl⟩ := List.getElem?_eq_some_iff.1 hi
    obtain ⟨hj', rfl⟩ := List.getElem?_eq_some_iff.1 hj
    exact List.pairwise_iff_getElem.1 hsd i j hi' hj' hij
  refine ⟨fun x => if a.toInt < x.startAddress.toInt then .lt
      else if x.startAddress.toInt + x.size.toNat ≤ a.toInt then .gt else .eq, ?_, ?_, ?_⟩
  · intro x hx
    exact searchCmp_eq a _ _ (hd (entryOf o s.fres x) (by rw [← hes]; exact List.mem_map_of_mem hx))
  · intro i x hx
    simp only
    have hi : es[i]? = some (entryOf o s.fres x) := by
      rw [← hes, List.getElem?_map, hx]; rfl
    obtain ⟨c1, c2⟩ := hc
    have hst : (entryOf o s.fres x).startAddress = x.startAddress := rfl
    have hsz : (entryOf o s.fres x).size = x.size := rfl
    rcases Nat.lt_trichotomy i k with h | h | h
    · have h3 := hsd i k _ _ h hi hk
      rw [hst, hsz] at h3
      rw [if_neg (show ¬ a.toInt < x.startAddress.toInt by omega),
        if_pos (show x.startAddress.toInt + x.size.toNat ≤ a.toInt by omega), if_pos h]
    · subst h
      rw [hk] at hi
      simp only [Option.some.injEq] at hi
      subst hi
      rw [hst] at c1
      rw [hst, hsz] at c2
      rw [if_neg (show ¬ a.toInt < x.startAddress.toInt by omega),
        if_neg (show ¬ x.startAddress.toInt + x.size.toNat ≤ a.toInt by omega),
        if_neg (show ¬ i < i by omega), if_pos rfl]
    · have h3 := hsd k i _ _ h hk hi
      rw [hst] at h3
      rw [if_pos (show a.toInt < x.startAddress.toInt by omega),
        if_neg (show ¬ i < k by omega), if_neg (show ¬ i = k by omega)]
  · rw [← hes, List.length_map]

/-- **C16**, what holds: in a sorted section with disjoint functions, an address of function number
`k` of `n` is found exactly when `k = n / 2` (standard library before 1.82), or exactly when
`n = 1`, or `n = 2` and `k = 1` (1.82 and later).  Missing: all other functions, for which the
property is false. -/
theorem C16_sorted_lookup_partial {dbg : Bool} {s : SFrame o} {a : I32}
    {es : List (FuncDescEntry o)} (hes : s.iter.collect = .ok es) (hs : s.flags.toNat % 2 = 1)
    (hsd : SortedDisjoint es) (hd : ∀ e ∈ es, NoOverflow dbg e a)
    {k : Nat} {e : FuncDescEntry o} (hk : es[k]? = some e) (hc : Covers e a) :
    (if k = es.length / 2 then ∃ e', s.fdeForAddress .v152 dbg a = .ok (some e') ∧ e'.fde = e.fde
      else s.fdeForAddress .v152 dbg a = .ok none) ∧
    (if es.length = 1 ∨ es.length = 2 ∧ k = 1 then
        ∃ e', s.fdeForAddress .v182 dbg a = .ok (some e') ∧ e'.fde = e.fde
      else s.fdeForAddress .v182 dbg a = .ok none) := by
  have hs' : Flags.contains s.flags Flags.FDE_SORTED = true := by
    revert hs; generalize s.flags = b; revert b; decide
  obtain ⟨g, hf, hg, hlen⟩ := sortedTable_cmp hes hsd hd hk hc
  have hkl : k < s.fdes.toList.length := by
    rw [hlen]; exact (List.getElem?_eq_some_iff.1 hk).1
  have hnth : ∃ e', (s.iter.nth k).1 = some e' ∧ e'.fde = e.fde := by
    have hd' : s.fdes.toList.drop k = s.fdes.toList[k] :: s.fdes.toList.drop (k + 1) :=
      List.drop_eq_getElem_cons hkl
    unfold FuncDescIter.nth SFrame.iter
    rw [hd']
    refine ⟨_, rfl, ?_⟩
    rw [FuncDescIter.collect_eq] at hes
    simp only [Rust.ok.injEq] at hes
    rw [← hes, List.getElem?_map] at hk
    obtain ⟨x, hx, rfl⟩ := Option.map_eq_some_iff.1 hk
    exact (List.getElem?_eq_some_iff.1 hx).2
  obtain ⟨e', he', hfde⟩ := hnth
  have h1 := search152_inverted g hf hkl hg
  have h2 := search182_inverted g hf hkl hg
  rw [hlen] at h1 h2
  constructor
  · split
    · rename_i h
      refine ⟨e', ?_, hfde⟩
      rw [fdeForAddress_sorted _ _ _ _ hs', h1.1 h]
      simp [he']
    · rename_i h
      obtain ⟨x, hx⟩ := h1.2 h
      rw [fdeForAddress_sorted _ _ _ _ hs', hx]
      rfl
  · split
    · rename_i h
      refine ⟨e', ?_, hfde⟩
      rw [fdeForAddress_sorted _ _ _ _ hs', h2.1 h]
      simp [he']
    · rename_i h
      obtain ⟨x, hx⟩ := h2.2 h
      rw [fdeForAddress_sorted _ _ _ _ hs', hx]
      rfl

/-- The sample meets the hypotheses with `k = 1`. -/
example : Samples.v2F.iter.collect = .ok [Samples.e0, Samples.e1] ∧
    Samples.v2F.flags.toNat % 2 = 1 ∧ SortedDisjoint [Samples.e0, Samples.e1] ∧
    (∀ e ∈ [Samples.e0, Samples.e1], NoOverflow true e 0x1025) ∧ Covers Samples.e1 0x1025 := by
  refine ⟨by decide +kernel, by decide +kernel, ?_, ?_, by decide +kernel⟩
  · simp [SortedDisjoint]; decide +kernel
  · intro e he
    simp only [List.mem_cons, List.not_mem_nil, or_false] at he
    rcases he with rfl | rfl <;> (intro _; decide +kernel)

/-- **C17** is false: the entry found has the rows of another function (read.rs:213 uses `nth`). -/
theorem C17_lookup_wrong_rows :
    ∃ (b : List U8) (s : SFrame .little) (e0 e1 e : FuncDescEntry .little) (a : I32),
      SFrame.load .little b = .ok (.ok s) ∧ s.iter.collect = .ok [e0, e1] ∧ Covers e1 a ∧
      (∀ alg dbg, s.fdeForAddress alg dbg a = .ok (some e)) ∧
      ∃ r r1, e.iter.collect = .ok [.ok r] ∧ e1.iter.collect = .ok [.ok r1] ∧
        r.cfaOffset = .ok 8 ∧ r1.cfaOffset = .ok 24 := by
  refine ⟨Samples.v2, _, Samples.e0, Samples.e1, Samples.e1bad, 0x1025, Samples.v2_loads,
    by decide +kernel, by decide +kernel, ?_, Samples.r1bad, Samples.r1, ?_⟩
  · intro alg dbg
    cases alg <;> cases dbg <;> decide +kernel
  · decide +kernel

/-- **C17**, what holds: without the sorted flag the entry is one of `fdes()`; with it, the entry has
the header of one of `fdes()`, and is that entry exactly when its start offset is 0 or there are no
FRE bytes.  Missing: the rows in a sorted section, which is false. -/
theorem C17_lookup_rows_partial {alg : SearchAlg} {dbg : Bool} {s : SFrame o} {a : I32}
    {e : FuncDescEntry o} (h : s.fdeForAddress alg dbg a = .ok (some e)) :
    ∃ es, s.iter.collect = .ok es ∧
      (s.flags.toNat % 2 = 0 → e ∈ es) ∧
      ∃ e' ∈ es, e.fde = e'.fde ∧
        (s.flags.toNat % 2 = 1 → (e = e' ↔ e'.fde.startFreOff = 0 ∨ s.fres = [])) := by
  refine ⟨_, FuncDescIter.collect_eq _, ?_⟩
  by_cases hs : Flags.contains s.flags Flags.FDE_SORTED = true
  · have hbit : s.flags.toNat % 2 = 1 := by
      revert hs; generalize s.flags = b; revert b; decide
    rw [fdeForAddress_sorted _ _ _ _ hs, Rust.bind_eq_ok] at h
    obtain ⟨r, hr, h⟩ := h
    cases r with
    | error _ => simp at h
    | ok i =>
      obtain ⟨fde, hfde, hc⟩ := binarySearchBy_found hr
      simp only [Rust.ok.injEq] at h
      have hd : s.fdes.toList.drop i = fde :: s.fdes.toList.drop (i + 1) := by
        obtain ⟨hi, rfl⟩ := List.getElem?_eq_some_iff.1 hfde
        exact List.drop_eq_getElem_cons hi
      unfold FuncDescIter.nth SFrame.iter at h
      rw [hd] at h
      simp only [Option.some.injEq] at h
      subst h
      refine ⟨by omega, entryOf o s.fres fde, List.mem_map_of_mem (List.mem_of_getElem? hfde), rfl,
        fun _ => ?_⟩
      simp only [entryOf, FuncDescEntry.mk.injEq, true_and]
      constructor
      · intro h
        have hlen := congrArg List.length h
        rw [List.length_drop] at hlen
        by_cases hf : s.fres = []
        · exact .inr hf
        · left
          have : s.fres.length ≠ 0 := by simpa using hf
          apply BitVec.eq_of_toNat_eq
          simp
          omega
      · rintro (h | h)
        · simp [h]
        · simp [h]
  · have hbit : s.flags.toNat % 2 = 0 := by
      revert hs; generalize s.flags = b; revert b; decide
    unfold SFrame.fdeForAddress at h
    rw [if_pos hs] at h
    obtain ⟨hm, hc⟩ := FuncDescIter.findFuel_found _ _ _ _ _ h
    exact ⟨fun _ => hm, e, hm, rfl, by omega⟩

/-- The lookup of the witness above: the header is that of the second function, the rows are not; with the
flag cleared the entry is the second one. -/
example : ∃ s s' : SFrame .little, SFrame.load .little Samples.v2 = .ok (.ok s) ∧
    SFrame.load .little (Samples.v2.set 3 0) = .ok (.ok s') ∧
    s.flags.toNat % 2 = 1 ∧ s'.flags.toNat % 2 = 0 ∧
    s.fdeForAddress .v182 true 0x1025 = .ok (some Samples.e1bad) ∧ Samples.e1bad.fde = Samples.e1.fde ∧
    Samples.e1bad ≠ Samples.e1 ∧ Samples.e1.fde.startFreOff ≠ 0 ∧
    s'.fdeForAddress .v182 true 0x1025 = .ok (some Samples.e1) := by
  refine ⟨_, _, Samples.v2_loads, rfl, ?_, ?_, ?_, ?_, ?_, ?_, ?_⟩ <;> decide +kernel

/-- **C18** is false: the first address after a function gets a row (read.rs:408 compares with `>`). -/
theorem C18_lookup_past_end :
    ∃ (b : List U8) (s : SFrame .little) (e : FuncDescEntry .little) (a : I32)
      (r : FrameRowEntry .little),
      SFrame.load .little b = .ok (.ok s) ∧ s.iter.next.1 = some e ∧ ¬ Covers e a ∧
      ∀ dbg, e.getFreForAddress dbg a = .ok (.ok (some r)) := by
  refine ⟨Samples.v2, _, Samples.e0, 0x1020, Samples.r00, Samples.v2_loads, by decide +kernel,
    by decide +kernel, ?_⟩
  intro dbg
  cases dbg <;> decide +kernel

/-- **C18**, what holds: addresses before the function, or after its end by at least one, get
`None` (in the debug build unless `a - start` overflows).  Missing: the address `start + size`,
for which the property is false. -/
theorem C18_lookup_outside_partial {dbg : Bool} {e : FuncDescEntry o} {a : I32}
    (hn : ¬ Covers e a) (hend : a.toInt ≠ e.startAddress.toInt + e.size.toNat)
    (hd : NoOverflow dbg e a) : e.getFreForAddress dbg a = .ok (.ok none) := by
  unfold FuncDescEntry.getFreForAddress
  by_cases h : a.toInt < e.startAddress.toInt
  · rw [if_pos h]
  · rw [if_neg h, subI32_ok (by omega) hd]
    have h1 := sub_toNat (a := a) (b := e.startAddress) (by omega)
    unfold Covers at hn
    simp only [Rust.bind_ok]
    rw [if_pos (by omega)]

example : ¬ Covers Samples.e0 0x1021 ∧
    (0x1021 : I32).toInt ≠ Samples.e0.startAddress.toInt + Samples.e0.size.toNat ∧
    NoOverflow true Samples.e0 0x1021 := by
  refine ⟨by decide +kernel, by decide +kernel, ?_⟩
  intro _; decide +kernel

theorem firstHit_ok (p : FrameRowEntry o → Bool) (rows : List (FrameRowEntry o)) :
    firstHit p (rows.map .ok) = .ok (rows.find? p) := by
  induction rows with
  | nil => rfl
  | cons r rs ih =>
    rw [List.map_cons, firstHit, List.find?_cons, ih]
    cases p r <;> rfl

/-- In range, and at the end, the lookup scans the rows with a test that depends on the function type. -/
theorem getFre_upto {dbg : Bool} {e : FuncDescEntry o} {a : I32}
    (c1 : e.startAddress.toInt ≤ a.toInt) (c2 : a.toInt ≤ e.startAddress.toInt + e.size.toNat)
    (hd : NoOverflow dbg e a) :
    ∃ rel : U32, (rel.toNat : Int) = a.toInt - e.startAddress.toInt ∧
      e.getFreForAddress dbg a =
        match e.fdetype with
        | .pcInc => e.iter.scan fun fre => decide (rel.toNat ≥ fre.startAddressOffset.toNat)
        | .pcMask =>
          match e.repBlockSize with
          | none => .panic .unwrap
          | some b =>
            if b.setWidth 32 = 0#32 then .ok (.error .invalidFdeRepBlockSize)
            else e.iter.scan fun fre => decide (rel.toNat % b.toNat ≥ fre.startAddressOffset.toNat)
        | .pcMaskV1 =>
          e.iter.scan fun fre =>
            decide ((rel &&& fre.startAddressOffset).toNat ≥ fre.startAddressOffset.toNat) := by
  have h1 := sub_toNat (a := a) (b := e.startAddress) (by omega)
  refine ⟨a - e.startAddress, h1, ?_⟩
  unfold FuncDescEntry.getFreForAddress
  rw [if_neg (by omega), subI32_ok (by omega) hd]
  simp only [Rust.bind_ok]
  rw [if_neg (by omega)]
  cases e.fdetype with
  | pcInc => rfl
  | pcMaskV1 => rfl
  | pcMask =>
    cases e.repBlockSize with
    | none => rfl
    | some b =>
      have : (BitVec.setWidth 32 b).toNat = b.toNat := by
        rw [BitVec.toNat_setWidth]; have := b.isLt; omega
      simp only [this]

theorem getFre_in_range {dbg : Bool} {e : FuncDescEntry o} {a : I32} (hc : Covers e a)
    (hd : NoOverflow dbg e a) :
    ∃ rel : U32, (rel.toNat : Int) = a.toInt - e.startAddress.toInt ∧
      e.getFreForAddress dbg a =
        match e.fdetype with
        | .pcInc => e.iter.scan fun fre => decide (rel.toNat ≥ fre.startAddressOffset.toNat)
        | .pcMask =>
          match e.repBlockSize with
          | none => .panic .unwrap
          | some b =>
            if b.setWidth 32 = 0#32 then .ok (.error .invalidFdeRepBlockSize)
            else e.iter.scan fun fre => decide (rel.toNat % b.toNat ≥ fre.startAddressOffset.toNat)
        | .pcMaskV1 =>
          e.iter.scan fun fre =>
            decide ((rel &&& fre.startAddressOffset).toNat ≥ fre.startAddressOffset.toNat) :=
  getFre_upto hc.1 (Int.le_of_lt hc.2) hd

/-- **C19** is false: in a function with two rows the first one is returned for every address
(read.rs:414-420 returns at the first row that starts at or before the address). -/
theorem C19_lookup_not_governing :
    ∃ (b : List U8) (s : SFrame .little) (e : FuncDescEntry .little) (a : I32)
      (r0 r4 : FrameRowEntry .little),
      SFrame.load .little b = .ok (.ok s) ∧ s.iter.next.1 = some e ∧ e.fdetype = .pcInc ∧
      Covers e a ∧ e.iter.collect = .ok [.ok r0, .ok r4] ∧ Ascending [r0, r4] ∧
      governing [r0, r4] (a.toInt - e.startAddress.toInt).toNat = some r4 ∧
      ∀ dbg, e.getFreForAddress dbg a = .ok (.ok (some r0)) ∧ r0.cfaOffset ≠ r4.cfaOffset := by
  refine ⟨Samples.v2, _, Samples.e0, 0x1010, Samples.r00, Samples.r04, Samples.v2_loads,
    by decide +kernel, by decide +kernel, by decide +kernel, by decide +kernel, ?_,
    by decide +kernel, ?_⟩
  · simp [Ascending]; decide +kernel
  · intro dbg
    cases dbg <;> decide +kernel

/-- **C19**, what holds: for an address in a PcInc function whose rows are all readable and in
ascending order, the lookup returns the *first* row starting at or before the address, and this is
the governing row exactly when at most one row starts at or before the address.  Missing: addresses
governed by the second or a later row, for which the property is false. -/
theorem C19_lookup_partial {dbg : Bool} {e : FuncDescEntry o} {a : I32}
    {rows : List (FrameRowEntry o)} (hc : Covers e a) (hd : NoOverflow dbg e a)
    (ht : e.fdetype = .pcInc) (hr : e.iter.collect = .ok (rows.map .ok)) (hasc : Ascending rows) :
    ∃ off : Nat, (off : Int) = a.toInt - e.startAddress.toInt ∧
      e.getFreForAddress dbg a =
        .ok (.ok (rows.find? fun r => decide (r.startAddressOffset.toNat ≤ off))) ∧
      (e.getFreForAddress dbg a = .ok (.ok (governing rows off)) ↔
        (rows.filter fun r => decide (r.startAddressOffset.toNat ≤ off)).length ≤ 1) := by
  obtain ⟨rel, hrel, h⟩ := getFre_in_range hc hd
  rw [ht] at h
  simp only [FuncDescEntry.scan_of_collect e _ hr, firstHit_ok, ge_iff_le] at h
  refine ⟨rel.toNat, hrel, h, ?_⟩
  rw [h]
  unfold governing
  simp only [Rust.ok.injEq, Except.ok.injEq]
  rw [← List.head?_filter]
  have hp : (rows.filter fun r => decide (r.startAddressOffset.toNat ≤ rel.toNat)).Pairwise
      fun r r' => r.startAddressOffset.toNat < r'.startAddressOffset.toNat := hasc.filter _
  generalize rows.filter (fun r => decide (r.startAddressOffset.toNat ≤ rel.toNat)) = l at hp
  match l, hp with
  | [], _ => simp
  | [r], _ => simp
  | r :: r' :: l, hp =>
    constructor
    · intro h
      rw [List.head?_cons, List.getLast?_cons_cons] at h
      have hm := List.mem_of_getLast? h.symm
      rw [List.pairwise_cons] at hp
      have := hp.1 r hm
      omega
    · intro h; simp at h

example : Covers Samples.e0 0x1003 ∧ NoOverflow true Samples.e0 0x1003 ∧
    Samples.e0.fdetype = .pcInc ∧
    Samples.e0.iter.collect = .ok ([Samples.r00, Samples.r04].map .ok) ∧
    Ascending [Samples.r00, Samples.r04] := by
  refine ⟨by decide +kernel, ?_, by decide +kernel, by decide +kernel, ?_⟩
  · intro _; decide +kernel
  · simp [Ascending]; decide +kernel

/-- **C20** In a PcMask function, lookups at two addresses in range that are congruent modulo the
repetition size have the same outcome. -/
theorem C20_pcmask_periodic {dbg : Bool} {e : FuncDescEntry o} {a a' : I32} {b : U8}
    (hc : Covers e a) (hd : NoOverflow dbg e a) (hc' : Covers e a') (hd' : NoOverflow dbg e a')
    (ht : e.fdetype = .pcMask) (hb : e.repBlockSize = some b)
    (hcong : (a.toInt - e.startAddress.toInt) % b.toNat = (a'.toInt - e.startAddress.toInt) % b.toNat) :
    e.getFreForAddress dbg a = e.getFreForAddress dbg a' := by
  obtain ⟨rel, hrel, h⟩ := getFre_in_range hc hd
  obtain ⟨rel', hrel', h'⟩ := getFre_in_range hc' hd'
  rw [← hrel, ← hrel'] at hcong
  have : rel.toNat % b.toNat = rel'.toNat % b.toNat := by omega
  rw [h, h', ht, hb]
  simp only [this]

/-- **C20** A PcMask function with repetition size 0 gives `InvalidFdeRepBlockSize` for every address
in range. -/
theorem C20_pcmask_zero {dbg : Bool} {e : FuncDescEntry o} {a : I32}
    (hc : Covers e a) (hd : NoOverflow dbg e a) (ht : e.fdetype = .pcMask)
    (hb : e.repBlockSize = some 0) :
    e.getFreForAddress dbg a = .ok (.error .invalidFdeRepBlockSize) := by
  obtain ⟨rel, hrel, h⟩ := getFre_in_range hc hd
  rw [h, ht, hb]
  rfl

/-- **C20** What the looked-up row of a PcMask function is: the first row whose start is at most
the address offset modulo the repetition size, an unreadable row before it being reported instead. -/
theorem C20_pcmask_row {dbg : Bool} {e : FuncDescEntry o} {a : I32} {b : U8}
    {rows : List (FrameRowEntry o)} (hc : Covers e a) (hd : NoOverflow dbg e a)
    (ht : e.fdetype = .pcMask) (hb : e.repBlockSize = some b) (hb0 : b ≠ 0)
    (hr : e.iter.collect = .ok (rows.map .ok)) :
    e.getFreForAddress dbg a = .ok (.ok (rows.find? fun r =>
      decide ((r.startAddressOffset.toNat : Int) ≤
        (a.toInt - e.startAddress.toInt) % b.toNat))) := by
  obtain ⟨rel, hrel, h⟩ := getFre_in_range hc hd
  have hz : ¬ b.setWidth 32 = 0#32 := by
    intro h
    apply hb0
    apply BitVec.eq_of_toNat_eq
    have := congrArg BitVec.toNat h
    rw [BitVec.toNat_setWidth] at this
    have := b.isLt
    simp at *
    omega
  rw [h, ht, hb]
  simp only [hz, if_false, FuncDescEntry.scan_of_collect e _ hr, firstHit_ok, ← hrel]
  congr 3
  funext r
  rw [decide_eq_decide]
  omega

/-- A PcMask function with block size 16 (a PLT), addresses two blocks apart; and one with size 0. -/
example :
    let e : FuncDescEntry .little := { Samples.e0 with
      fde := .v2 ⟨0x1000, 0x40, 0, 2, 8, 16, 0⟩ }
    Covers e 0x1005 ∧ Covers e 0x1025 ∧ e.fdetype = .pcMask ∧ e.repBlockSize = some 16 ∧
    NoOverflow true e 0x1005 ∧ NoOverflow true e 0x1025 ∧
    ((0x1005 : I32).toInt - e.startAddress.toInt) % 16 =
      ((0x1025 : I32).toInt - e.startAddress.toInt) % 16 := by
  refine ⟨by decide +kernel, by decide +kernel, by decide +kernel, by decide +kernel, ?_, ?_,
    by decide +kernel⟩ <;> (intro _; decide +kernel)

end Verif
