import Verif.Props.Probes
import Verif.Props.Lookup2
import Verif.Spec.LookupPanics
/-!
# When address lookups panic: C15, C125
-/

namespace Verif
open Spec

section
variable {α : Type} {f : α → Rust Ordering} {l : List α}

/-- A search that meets no panic returns. -/
theorem search152_returns {fuel left right : Nat} (hr : right ≤ l.length) (hfuel : right - left ≤ fuel)
    (h : ∀ i x, left ≤ i → i < right → l[i]? = some x → ∃ c, f x = .ok c) :
    (search152 f l fuel left right (right - left)).Returns := by
  induction fuel generalizing left right with
  | zero => exact ⟨_, search152_end f l _ _ (by omega)⟩
  | succ fuel ih =>
    by_cases hlt : left < right
    · have hm : left + (right - left) / 2 < l.length := by omega
      rw [search152_turn f l fuel _ hlt, List.getElem?_eq_getElem hm]
      obtain ⟨c, hc⟩ := h _ _ (by omega) (by omega) (List.getElem?_eq_getElem hm)
      simp only [hc, Rust.bind_ok]
      cases c with
      | eq => exact ⟨_, rfl⟩
      | lt => exact ih hr (by omega) (fun i x h1 h2 => h i x (by omega) h2)
      | gt => exact ih (by omega) (by omega) (fun i x h1 h2 => h i x h1 (by omega))
    · exact ⟨_, search152_end f l _ _ hlt⟩

theorem search182_returns {fuel base size : Nat} (hs : 1 ≤ size) (hr : base + size ≤ l.length)
    (hfuel : size ≤ fuel + 1) (h : ∀ i x, base ≤ i → i < base + size → l[i]? = some x → ∃ c, f x = .ok c) :
    (search182 f l fuel base size).Returns := by
  have last : ∀ fuel base, base < l.length → (∀ x, l[base]? = some x → ∃ c, f x = .ok c) →
      ∀ size, ¬ 1 < size → (search182 f l fuel base size).Returns := by
    intro fuel base hb h size hs
    rw [search182_end f l _ _ hs, List.getElem?_eq_getElem hb]
    obtain ⟨c, hc⟩ := h _ (List.getElem?_eq_getElem hb)
    simp only [hc, Rust.bind_ok]
    cases c <;> exact ⟨_, rfl⟩
  induction fuel generalizing base size with
  | zero => exact last _ _ (by omega) (fun x => h _ x (by omega) (by omega)) _ (by omega)
  | succ fuel ih =>
    by_cases hlt : 1 < size
    · have hm : base + size / 2 < l.length := by omega
      rw [search182_turn f l fuel _ hlt, List.getElem?_eq_getElem hm]
      obtain ⟨c, hc⟩ := h _ _ (by omega) (by omega) (List.getElem?_eq_getElem hm)
      simp only [hc, Rust.bind_ok]
      cases c with
      | eq => exact ih (by omega) (by omega) (by omega) (fun i x h1 h2 => h i x (by omega) (by omega))
      | lt => exact ih (by omega) (by omega) (by omega) (fun i x h1 h2 => h i x (by omega) (by omega))
      | gt => exact ih (by omega) (by omega) (by omega) (fun i x h1 h2 => h i x (by omega) (by omega))
    · exact last _ _ (by omega) (fun x => h _ x (by omega) (by omega)) _ hlt

theorem binarySearchBy_returns (alg : SearchAlg) (h : ∀ x ∈ l, ∃ c, f x = .ok c) :
    (binarySearchBy alg f l).Returns := by
  cases alg with
  | v152 =>
    have := search152_returns (f := f) (fuel := l.length) (left := 0) (Nat.le_refl l.length) (by omega)
      (fun i x _ _ hx => h x (List.mem_of_getElem? hx))
    exact this
  | v182 =>
    unfold binarySearchBy
    simp only
    split
    · exact ⟨_, rfl⟩
    · exact search182_returns (by omega) (by omega) (by omega) (fun i x _ _ hx => h x (List.mem_of_getElem? hx))

/-- A search panics only as the comparison of some element does. -/
theorem binarySearchBy_outcome (alg : SearchAlg) {p : Panic} (h : ∀ x, (∃ c, f x = .ok c) ∨ f x = .panic p) :
    (binarySearchBy alg f l).Returns ∨ binarySearchBy alg f l = .panic p := by
  cases alg with
  | v152 =>
    suffices H : ∀ fuel left right, right ≤ l.length → right - left ≤ fuel →
        (search152 f l fuel left right (right - left)).Returns ∨
          search152 f l fuel left right (right - left) = .panic p from
      H l.length 0 l.length (Nat.le_refl _) (by omega)
    intro fuel
    induction fuel with
    | zero => intro left right _ _; exact .inl ⟨_, search152_end f l _ _ (by omega)⟩
    | succ fuel ih =>
      intro left right hr hfuel
      by_cases hlt : left < right
      · have hm : left + (right - left) / 2 < l.length := by omega
        rw [search152_turn f l fuel _ hlt, List.getElem?_eq_getElem hm]
        rcases h l[left + (right - left) / 2] with ⟨c, hc⟩ | hc
        · simp only [hc, Rust.bind_ok]
          cases c with
          | eq => exact .inl ⟨_, rfl⟩
          | lt => exact ih _ _ hr (by omega)
          | gt => exact ih _ _ (by omega) (by omega)
        · right; simp only [hc, Rust.bind_panic]
      · exact .inl ⟨_, search152_end f l _ _ hlt⟩
  | v182 =>
    unfold binarySearchBy
    simp only
    split
    · exact .inl ⟨_, rfl⟩
    suffices H : ∀ fuel base size, 1 ≤ size → base + size ≤ l.length → size ≤ fuel + 1 →
        (search182 f l fuel base size).Returns ∨ search182 f l fuel base size = .panic p from
      H l.length 0 l.length (by omega) (by omega) (by omega)
    have last : ∀ fuel base, base < l.length → ∀ size, ¬ 1 < size →
        (search182 f l fuel base size).Returns ∨ search182 f l fuel base size = .panic p := by
      intro fuel base hb size hs
      rw [search182_end f l _ _ hs, List.getElem?_eq_getElem hb]
      rcases h l[base] with ⟨c, hc⟩ | hc
      · left; simp only [hc, Rust.bind_ok]; cases c <;> exact ⟨_, rfl⟩
      · right; simp only [hc, Rust.bind_panic]
    intro fuel
    induction fuel with
    | zero => intro base size _ _ _; exact last _ _ (by omega) _ (by omega)
    | succ fuel ih =>
      intro base size h1 h2 h3
      by_cases hlt : 1 < size
      · have hm : base + size / 2 < l.length := by omega
        rw [search182_turn f l fuel _ hlt, List.getElem?_eq_getElem hm]
        rcases h l[base + size / 2] with ⟨c, hc⟩ | hc
        · simp only [hc, Rust.bind_ok]
          cases c <;> exact ih _ _ (by omega) (by omega) (by omega)
        · right; simp only [hc, Rust.bind_panic]
      · exact last _ _ (by omega) _ hlt

/-- A search that always turns left comes to the first element, and panics there if not before. -/
theorem binarySearchBy_left (alg : SearchAlg) {p : Panic} {x0 : α} (h0 : l[0]? = some x0) (hp : f x0 = .panic p)
    (h : ∀ i x, i ≤ l.length / 2 → l[i]? = some x → f x = .ok .gt ∨ f x = .panic p) :
    binarySearchBy alg f l = .panic p := by
  have hl := (List.getElem?_eq_some_iff.1 h0).1
  cases alg with
  | v152 =>
    suffices H : ∀ fuel right, right ≤ l.length → 0 < right → right ≤ fuel →
        search152 f l fuel 0 right right = .panic p from H l.length l.length (Nat.le_refl _) hl (Nat.le_refl _)
    intro fuel
    induction fuel with
    | zero => intro right _ _ _; omega
    | succ fuel ih =>
      intro right hr hpos hfuel
      have hm : 0 + right / 2 < l.length := by omega
      rw [search152_turn f l fuel _ hpos, List.getElem?_eq_getElem hm]
      rcases h _ _ (by omega) (List.getElem?_eq_getElem hm) with hc | hc
      · simp only [hc, Rust.bind_ok]
        have hne : right / 2 ≠ 0 := by
          intro hz
          simp only [hz, Nat.add_zero, (List.getElem?_eq_some_iff.1 h0).2, hp] at hc
          cases hc
        have := ih (0 + right / 2) (by omega) (by omega) (by omega)
        simpa using this
      · simp only [hc, Rust.bind_panic]
  | v182 =>
    unfold binarySearchBy
    simp only
    rw [if_neg (by omega)]
    suffices H : ∀ fuel size, size ≤ l.length → 1 ≤ size → size ≤ fuel + 1 →
        search182 f l fuel 0 size = .panic p from H l.length l.length (Nat.le_refl _) hl (by omega)
    have last : ∀ fuel size, ¬ 1 < size → search182 f l fuel 0 size = .panic p := by
      intro fuel size hs
      rw [search182_end f l _ _ hs, h0]
      simp only [hp, Rust.bind_panic]
    intro fuel
    induction fuel with
    | zero => intro size _ _ _; exact last _ _ (by omega)
    | succ fuel ih =>
      intro size h1 h2 h3
      by_cases hlt : 1 < size
      · have hm : 0 + size / 2 < l.length := by omega
        rw [search182_turn f l fuel _ hlt, List.getElem?_eq_getElem hm]
        rcases h _ _ (by omega) (List.getElem?_eq_getElem hm) with hc | hc
        · simp only [hc, Rust.bind_ok]
          exact ih _ (by omega) (by omega) (by omega)
        · simp only [hc, Rust.bind_panic]
      · exact last _ _ hlt

/-- A search that does not turn left at its first step stays in the right half. -/
theorem binarySearchBy_right (alg : SearchAlg) {x : α} {c : Ordering} (hx : l[l.length / 2]? = some x)
    (hc : f x = .ok c) (hne : c ≠ .gt) (h : ∀ i y, l.length / 2 < i → l[i]? = some y → ∃ c, f y = .ok c) :
    (binarySearchBy alg f l).Returns := by
  have hl := (List.getElem?_eq_some_iff.1 hx).1
  obtain ⟨n, hn⟩ : ∃ n, l.length = n + 1 := ⟨l.length - 1, by omega⟩
  cases alg with
  | v152 =>
    show (search152 f l l.length 0 l.length l.length).Returns
    rw [show search152 f l l.length 0 l.length l.length = search152 f l (n + 1) 0 l.length l.length by rw [← hn],
      search152_turn f l n _ (by omega), Nat.zero_add, hx]
    simp only [hc, Rust.bind_ok]
    cases c with
    | eq => exact ⟨_, rfl⟩
    | gt => exact absurd rfl hne
    | lt => exact search152_returns (Nat.le_refl _) (by omega) (fun i y h1 _ => h i y (by omega))
  | v182 =>
    unfold binarySearchBy
    simp only
    rw [if_neg (by omega)]
    by_cases h1 : 1 < l.length
    · rw [show search182 f l l.length 0 l.length = search182 f l (n + 1) 0 l.length by rw [← hn],
        search182_turn f l n _ h1, Nat.zero_add, hx]
      simp only [hc, Rust.bind_ok]
      have : (search182 f l n (l.length / 2) (l.length - l.length / 2)).Returns := by
        refine search182_returns (by omega) (by omega) (by omega) (fun i y h1 _ hy => ?_)
        rcases Nat.eq_or_lt_of_le h1 with h1 | h1
        · subst h1; rw [hx, Option.some.injEq] at hy; subst hy; exact ⟨c, hc⟩
        · exact h i y h1 hy
      cases c with
      | eq => exact this
      | gt => exact absurd rfl hne
      | lt => exact this
    · have hz : l.length / 2 = 0 := by omega
      rw [hz] at hx
      rw [search182_end f l _ _ h1, hx]
      simp only [hc, Rust.bind_ok]
      cases c <;> exact ⟨_, rfl⟩

end

variable {o : Endian}

theorem bind_panics {α β : Type} {x : Rust α} {g : α → Rust β} (hg : ∀ r, (g r).Returns) :
    (x.bind g).Panics ↔ x.Panics := by
  cases x with
  | ok r =>
    obtain ⟨y, hy⟩ := hg r
    rw [Rust.bind_ok, hy]
    constructor <;> rintro ⟨p, h⟩ <;> cases h
  | panic p => exact ⟨fun _ => ⟨p, rfl⟩, fun _ => ⟨p, rfl⟩⟩
  | diverge => constructor <;> rintro ⟨p, h⟩ <;> cases h

theorem searchCmp_far {a start : I32} (size : U32) (h : 2147483647 < a.toInt - start.toInt) :
    SFrame.searchCmp true a start size = .panic .overflow := by
  unfold SFrame.searchCmp
  rw [if_neg (by omega), subI32_overflow h]
  rfl

theorem searchCmp_outcome (dbg : Bool) (a start : I32) (size : U32) :
    (∃ c, SFrame.searchCmp dbg a start size = .ok c) ∨ SFrame.searchCmp dbg a start size = .panic .overflow := by
  by_cases h : dbg = true → a.toInt - start.toInt ≤ 2147483647
  · exact .inl ⟨_, searchCmp_eq a start size h⟩
  · obtain ⟨rfl, h⟩ := Classical.not_imp.1 h
    exact .inr (searchCmp_far size (by omega))

theorem noOverflow_of {dbg : Bool} {e : FuncDescEntry o} {a : I32} (h : ¬ (dbg = true ∧ FarBehind e a)) :
    NoOverflow dbg e a := fun hd => by
  unfold FarBehind at h
  exact Int.not_lt.1 fun h' => h ⟨hd, h'⟩

theorem contains_far {e : FuncDescEntry o} {a : I32} (h : FarBehind e a) : e.contains true a = .panic .overflow := by
  unfold FarBehind at h
  unfold FuncDescEntry.contains
  simp only
  rw [if_neg (by omega), subI32_overflow h]
  rfl

theorem sorted_flag {s : SFrame o} (hs : s.flags.toNat % 2 = 1) :
    Flags.contains s.flags Flags.FDE_SORTED = true := by
  revert hs; generalize s.flags = b; revert b; decide

theorem unsorted_flag {s : SFrame o} (hs : s.flags.toNat % 2 = 0) :
    ¬ Flags.contains s.flags Flags.FDE_SORTED = true := by
  revert hs; generalize s.flags = b; revert b; decide

theorem findFuel_met (l : List Fde) (fres : List U8) (a : I32) (fuel : Nat) (h : l.length ≤ fuel) :
    FuncDescIter.findFuel (fun e => e.contains true a) fuel (FuncDescIter.mk (o := o) l fres) =
      match firstMet (l.map (entryOf o fres)) a with
      | none => .ok none
      | some e => if FarBehind e a then .panic .overflow else .ok (some e) := by
  induction l generalizing fuel with
  | nil => unfold FuncDescIter.findFuel; simp [FuncDescIter.next_nil, firstMet]
  | cons x l ih =>
    unfold FuncDescIter.findFuel
    simp only [FuncDescIter.next_cons]
    by_cases ht : FarBehind (entryOf o fres x) a
    · rw [contains_far ht]
      simp [firstMet, ht]
    · rw [contains_eq _ _ (noOverflow_of (dbg := true) (fun h => ht h.2))]
      simp only [Rust.bind_ok]
      by_cases hc : Covers (entryOf o fres x) a
      · rw [if_pos (by exact decide_eq_true hc)]
        simp [firstMet, ht, hc]
      · rw [if_neg (by exact fun h => hc (of_decide_eq_true h))]
        cases fuel with
        | zero => simp at h
        | succ fuel =>
          have := ih fuel (by simpa using h)
          simp only [this]
          simp [firstMet, ht, hc]

/-- **C15, without condition.**  In a section without the sorted flag the lookup of a build with overflow checks comes
to the first function that covers the address or that the address is too far from; in the latter case it panics. -/
theorem C15_checked (alg : SearchAlg) {s : SFrame o} {es : List (FuncDescEntry o)} (hes : s.iter.collect = .ok es)
    (hs : s.flags.toNat % 2 = 0) (a : I32) :
    s.fdeForAddress alg true a =
      match firstMet es a with
      | none => .ok none
      | some e => if FarBehind e a then .panic .overflow else .ok (some e) := by
  unfold SFrame.fdeForAddress
  rw [if_pos (unsorted_flag hs)]
  rw [FuncDescIter.collect_eq] at hes
  simp only [Rust.ok.injEq] at hes
  subst hes
  exact findFuel_met _ _ _ _ (Nat.le_refl _)

/-- **C15, in a build without overflow checks**: for every address. -/
theorem C15_unchecked (alg : SearchAlg) {s : SFrame o} {es : List (FuncDescEntry o)} (hes : s.iter.collect = .ok es)
    (hs : s.flags.toNat % 2 = 0) (a : I32) :
    s.fdeForAddress alg false a = .ok (es.find? fun e => decide (Covers e a)) :=
  C15_unsorted_lookup hes hs (fun _ _ h => by cases h)

/-- Functions at -0x7FFFF000 and 0x1020: 0x7FFFFFFF is too far from the first, while 0 is not. -/
example : let s : SFrame .little := { Samples.v2F with
      preamble := { magic := 0xDEE2, version := 2, flags := 0 },
      fdes := .v2 [⟨0x80001000, 0x20, 0, 2, 0, 0, 0⟩, ⟨0x1020, 0x10, 7, 1, 0, 0, 0⟩] }
    s.flags.toNat % 2 = 0 ∧ s.fdeForAddress .v182 true 0x7FFFFFFF = .panic .overflow ∧
    s.fdeForAddress .v182 false 0x7FFFFFFF = .ok none ∧
    (s.fdeForAddress .v182 true 0x80001001).Returns ∧ s.fdeForAddress .v182 true 0 = .ok none := by
  refine ⟨by decide +kernel, by decide +kernel, by decide +kernel, ⟨some ⟨.v2 ⟨0x80001000, 0x20, 0, 2, 0, 0, 0⟩, _⟩, rfl⟩,
    by decide +kernel⟩

/-- **C125** is false of lookups of functions in builds with overflow checks: an address of a function is looked up in a
section that can be loaded, and an earlier function is too far away. -/
theorem C125_functions_panic :
    ∃ (b : List U8) (s : SFrame .little) (es : List (FuncDescEntry .little)) (e : FuncDescEntry .little) (a : I32),
      SFrame.load .little b = .ok (.ok s) ∧ s.iter.collect = .ok es ∧ e ∈ es ∧ Covers e a ∧
      ∀ alg, s.fdeForAddress alg true a = .panic .overflow := by
  refine ⟨(Samples.v2.set 3 0).set 31 0x80, _, _, Samples.e1, 0x1025, rfl, rfl, ?_, by decide +kernel, ?_⟩
  · exact List.mem_cons_of_mem _ (List.mem_cons_self ..)
  · intro alg; cases alg <;> decide +kernel

/-- **C125** is false of lookups of rows in any build: the first row starts behind the end of the function. -/
theorem C125_rows_panic :
    ∃ (b : List U8) (s : SFrame .little) (e : FuncDescEntry .little) (a : I32),
      SFrame.load .little b = .ok (.ok s) ∧ s.iter.next.1 = some e ∧ Covers e a ∧
      ∀ dbg, e.getFreForAddress dbg a = .panic .assertion := by
  refine ⟨Samples.v2.set 68 0x20, _, { Samples.e0 with fres := Samples.e0.fres.set 0 0x20 }, 0x1004, rfl, ?_, ?_, ?_⟩
  · decide +kernel
  · decide +kernel
  · intro dbg; cases dbg <;> decide +kernel

/-- **C125, what holds of all sections**: a lookup of a function returns or panics because of an overflow, which takes a build with overflow checks and a
function that the address is too far from. -/
theorem C125_functions_partial (alg : SearchAlg) (dbg : Bool) (s : SFrame o) (a : I32) :
    ∃ es, s.iter.collect = .ok es ∧
      ((s.fdeForAddress alg dbg a).Returns ∨
        s.fdeForAddress alg dbg a = .panic .overflow ∧ dbg = true ∧ ∃ e ∈ es, FarBehind e a) := by
  refine ⟨_, FuncDescIter.collect_eq _, ?_⟩
  by_cases hfar : dbg = true ∧ ∃ e ∈ s.iter.fdes.map (entryOf o s.iter.fres), FarBehind e a
  · obtain ⟨rfl, hfar⟩ := hfar
    rcases Nat.mod_two_eq_zero_or_one s.flags.toNat with hs | hs
    · rw [C15_checked alg (FuncDescIter.collect_eq _) hs]
      split
      · exact .inl ⟨_, rfl⟩
      · split
        · exact .inr ⟨rfl, rfl, hfar⟩
        · exact .inl ⟨_, rfl⟩
    · rw [fdeForAddress_sorted _ _ _ _ (sorted_flag hs)]
      rcases binarySearchBy_outcome (l := s.fdes.toList) alg
        (fun x : Fde => searchCmp_outcome true a x.startAddress x.size) with ⟨r, hr⟩ | hr
      · rw [hr]
        left
        cases r <;> exact ⟨_, rfl⟩
      · rw [hr]
        exact .inr ⟨rfl, rfl, hfar⟩
  · have hno : ∀ e ∈ s.iter.fdes.map (entryOf o s.iter.fres), NoOverflow dbg e a :=
      fun e he => noOverflow_of fun h => hfar ⟨h.1, e, he, h.2⟩
    left
    rcases Nat.mod_two_eq_zero_or_one s.flags.toNat with hs | hs
    · exact ⟨_, C15_unsorted_lookup (FuncDescIter.collect_eq _) hs hno⟩
    · rw [fdeForAddress_sorted _ _ _ _ (sorted_flag hs)]
      obtain ⟨r, hr⟩ := binarySearchBy_returns (l := s.fdes.toList)
        (f := fun x : Fde => SFrame.searchCmp dbg a x.startAddress x.size) alg
        (fun x hx => ⟨_, searchCmp_eq a _ _ (hno (entryOf o s.fres x) (List.mem_map_of_mem hx))⟩)
      rw [hr]
      cases r <;> exact ⟨_, rfl⟩

/-- **C125, unsorted sections**: exactly when the lookup of a function panics. -/
theorem C125_unsorted_partial (alg : SearchAlg) {s : SFrame o} {es : List (FuncDescEntry o)}
    (hes : s.iter.collect = .ok es) (hs : s.flags.toNat % 2 = 0) (a : I32) :
    (s.fdeForAddress alg true a).Panics ↔
      ∃ (i : Nat) (e : FuncDescEntry o), es[i]? = some e ∧ FarBehind e a ∧
        ∀ (j : Nat) (e' : FuncDescEntry o), j < i → es[j]? = some e' → ¬ Covers e' a := by
  rw [C15_checked alg hes hs]
  clear hes hs
  unfold firstMet
  induction es with
  | nil => simp [Rust.Panics]
  | cons x es ih =>
    by_cases ht : FarBehind x a
    · simp only [List.find?_cons, ht, decide_true, Bool.or_true, if_true]
      exact ⟨fun _ => ⟨0, x, rfl, ht, fun j _ hj => by omega⟩, fun _ => ⟨_, rfl⟩⟩
    · by_cases hc : Covers x a
      · simp only [List.find?_cons, hc, ht, decide_true, Bool.true_or, if_false]
        refine ⟨fun ⟨p, h⟩ => (by cases h), fun ⟨i, e, hi, he, h⟩ => ?_⟩
        cases i with
        | zero => simp only [List.getElem?_cons_zero, Option.some.injEq] at hi; exact absurd (hi ▸ he) ht
        | succ i => exact absurd hc (h 0 x (by omega) rfl)
      · simp only [List.find?_cons, hc, ht, decide_false, Bool.or_false]
        rw [ih]
        constructor
        · rintro ⟨i, e, hi, he, h⟩
          refine ⟨i + 1, e, hi, he, fun j e' hj hj' => ?_⟩
          cases j with
          | zero => simp only [List.getElem?_cons_zero, Option.some.injEq] at hj'; exact hj' ▸ hc
          | succ j => exact h j e' (by omega) hj'
        · rintro ⟨i, e, hi, he, h⟩
          cases i with
          | zero => simp only [List.getElem?_cons_zero, Option.some.injEq] at hi; exact absurd (hi ▸ he) ht
          | succ i => exact ⟨i, e, hi, he, fun j e' hj hj' => h (j + 1) e' (by omega) hj'⟩

/-- **C125, sorted sections**: exactly when the lookup of a function panics.  The address is too far from the first
function, and it neither lies before the middle one nor is found in it. -/
theorem C125_sorted_partial (alg : SearchAlg) {s : SFrame o} {es : List (FuncDescEntry o)}
    (hes : s.iter.collect = .ok es) (hs : s.flags.toNat % 2 = 1) (hsd : SortedDisjoint es) (a : I32) :
    (s.fdeForAddress alg true a).Panics ↔
      ∃ first middle : FuncDescEntry o, es[0]? = some first ∧ es[es.length / 2]? = some middle ∧
        FarBehind first a ∧ (FarBehind middle a ∨ middle.startAddress.toInt + middle.size.toNat ≤ a.toInt) := by
  rw [fdeForAddress_sorted _ _ _ _ (sorted_flag hs)]
  rw [FuncDescIter.collect_eq] at hes
  simp only [Rust.ok.injEq] at hes
  have hlist : s.iter.fdes = s.fdes.toList := rfl
  rw [hlist] at hes
  have hord : ∀ (i j : Nat) e e', i < j → es[i]? = some e → es[j]? = some e' →
      e.startAddress.toInt + e.size.toNat ≤ e'.startAddress.toInt := by
    intro i j e e' hij hi hj
    obtain ⟨hi', rfl⟩ := List.getElem?_eq_some_iff.1 hi
    obtain ⟨hj', rfl⟩ := List.getElem?_eq_some_iff.1 hj
    exact List.pairwise_iff_getElem.1 hsd i j hi' hj' hij
  have hget : ∀ i : Nat, es[i]? = (s.fdes.toList[i]?).map (entryOf o s.fres) := by
    intro i; rw [← hes, List.getElem?_map]; rfl
  have hlen : es.length = s.fdes.toList.length := by rw [← hes, List.length_map]
  refine (bind_panics fun r => by cases r <;> exact ⟨_, rfl⟩).trans ?_
  constructor
  · rintro ⟨p, hp⟩
    have hnr : ¬ (binarySearchBy alg (fun x : Fde => SFrame.searchCmp true a x.startAddress x.size)
        s.fdes.toList).Returns := by rintro ⟨r, hr⟩; rw [hp] at hr; cases hr
    have hpos : 0 < s.fdes.toList.length := by
      rcases Nat.eq_zero_or_pos s.fdes.toList.length with h | h
      · exfalso
        refine hnr (binarySearchBy_returns alg fun x hx => ?_)
        rw [List.eq_nil_of_length_eq_zero h] at hx; cases hx
      · exact h
    have h0 : s.fdes.toList[0]? = some s.fdes.toList[0] := List.getElem?_eq_getElem hpos
    have hm' : s.fdes.toList.length / 2 < s.fdes.toList.length := by omega
    have hm : s.fdes.toList[s.fdes.toList.length / 2]? = some s.fdes.toList[s.fdes.toList.length / 2] :=
      List.getElem?_eq_getElem hm'
    refine ⟨entryOf o s.fres s.fdes.toList[0], entryOf o s.fres s.fdes.toList[s.fdes.toList.length / 2],
      by rw [hget, h0]; rfl, by rw [hget, hlen, hm]; rfl, ?_, ?_⟩
    · -- otherwise no function is too far
      refine Classical.byContradiction fun h => hnr (binarySearchBy_returns alg fun x hx => ?_)
      obtain ⟨i, hi, rfl⟩ := List.getElem_of_mem hx
      refine ⟨_, searchCmp_eq a _ _ fun _ => ?_⟩
      unfold FarBehind at h
      have hst : (entryOf o s.fres s.fdes.toList[0]).startAddress = s.fdes.toList[0].startAddress := rfl
      rw [hst] at h
      cases i with
      | zero => omega
      | succ i =>
        have := hord 0 (i + 1) (entryOf o s.fres s.fdes.toList[0]) (entryOf o s.fres s.fdes.toList[i + 1])
          (by omega) (by rw [hget, h0]; rfl) (by rw [hget, List.getElem?_eq_getElem hi]; rfl)
        have e1 : (entryOf o s.fres s.fdes.toList[0]).startAddress = s.fdes.toList[0].startAddress := rfl
        have e2 : (entryOf o s.fres s.fdes.toList[i + 1]).startAddress = s.fdes.toList[i + 1].startAddress := rfl
        rw [e1, e2] at this
        omega
    · refine Classical.byContradiction fun h => hnr ?_
      have hst : (entryOf o s.fres s.fdes.toList[s.fdes.toList.length / 2]).startAddress =
        s.fdes.toList[s.fdes.toList.length / 2].startAddress := rfl
      have hsz : (entryOf o s.fres s.fdes.toList[s.fdes.toList.length / 2]).size =
        s.fdes.toList[s.fdes.toList.length / 2].size := rfl
      unfold FarBehind at h
      rw [hst, hsz, not_or] at h
      refine binarySearchBy_right alg hm (searchCmp_eq a _ _ fun _ => by omega) ?_ fun i y hi hy => ?_
      · split
        · simp
        · rw [if_neg h.2]; simp
      · refine ⟨_, searchCmp_eq a _ _ fun _ => ?_⟩
        have := hord _ i (entryOf o s.fres s.fdes.toList[s.fdes.toList.length / 2]) (entryOf o s.fres y)
          hi (by rw [hget, hm]; rfl) (by rw [hget, hy]; rfl)
        have e2 : (entryOf o s.fres y).startAddress = y.startAddress := rfl
        rw [hst, e2] at this
        omega
  · rintro ⟨first, middle, h0, hm, hfar, hmid⟩
    rw [hget, Option.map_eq_some_iff] at h0 hm
    obtain ⟨x0, hx0, rfl⟩ := h0
    obtain ⟨xm, hxm, rfl⟩ := hm
    rw [hlen] at hxm
    have hst : ∀ x : Fde, (entryOf o s.fres x).startAddress = x.startAddress := fun _ => rfl
    have hsz : ∀ x : Fde, (entryOf o s.fres x).size = x.size := fun _ => rfl
    unfold FarBehind at hfar hmid
    rw [hst] at hfar
    rw [hst, hsz] at hmid
    refine ⟨.overflow, binarySearchBy_left alg hx0 (searchCmp_far _ hfar) fun i x hi hx => ?_⟩
    by_cases hf : 2147483647 < a.toInt - x.startAddress.toInt
    · exact .inr (searchCmp_far _ hf)
    · left
      rw [searchCmp_eq a _ _ (fun _ => by omega)]
      have hb := toInt_bounds a
      rcases Nat.eq_or_lt_of_le hi with hi | hi
      · subst hi
        rw [hxm, Option.some.injEq] at hx
        subst hx
        rw [if_neg (by omega), if_pos (by omega)]
      · have := hord i _ (entryOf o s.fres x) (entryOf o s.fres xm) hi (by rw [hget, hx]; rfl) (by rw [hget, hxm]; rfl)
        rw [hst, hst, hsz] at this
        rw [if_neg (by omega), if_pos (by omega)]

/-- Both situations of a sorted section, for functions at -0x7FFFF000 and 0x1020. -/
example : let s : SFrame .little := { Samples.v2F with
      fdes := .v2 [⟨0x80001000, 0x20, 0, 2, 0, 0, 0⟩, ⟨0x1020, 0x10, 7, 1, 0, 0, 0⟩] }
    s.flags.toNat % 2 = 1 ∧ (∀ es, s.iter.collect = .ok es → SortedDisjoint es) ∧
    (∀ alg, s.fdeForAddress alg true 0x1030 = .panic .overflow) ∧
    (∀ alg, (s.fdeForAddress alg true 0x1025).Returns) := by
  refine ⟨by decide +kernel, ?_, ?_, ?_⟩
  · intro es h
    rw [FuncDescIter.collect_eq] at h
    simp only [Rust.ok.injEq] at h
    subst h
    simp [SortedDisjoint, SFrame.iter, FdeList.toList]
    decide +kernel
  · intro alg; cases alg <;> decide +kernel
  · intro alg; cases alg <;> exact ⟨some Samples.e1bad, by decide +kernel⟩

theorem firstApplying_panics (size : Nat) (m : FreView → Bool) (vs : List (Except ReadError FreView)) :
    (firstApplying size m vs).Panics ↔ Meets size m vs := by
  induction vs with
  | nil =>
    refine ⟨fun ⟨p, h⟩ => (by cases h), fun ⟨i, v, h, _⟩ => ?_⟩
    simp at h
  | cons x vs ih =>
    cases x with
    | error e =>
      refine ⟨fun ⟨p, h⟩ => (by cases h), fun ⟨i, v, h, _, hj⟩ => ?_⟩
      cases i with
      | zero => simp at h
      | succ i => obtain ⟨w, hw, _⟩ := hj 0 (by omega); simp at hw
    | ok v =>
      unfold firstApplying
      by_cases hv : v.start < size
      · rw [if_neg (fun h => h hv)]
        cases hm : m v with
        | true =>
          rw [if_pos rfl]
          refine ⟨fun ⟨p, h⟩ => (by cases h), fun ⟨i, w, h, hw, hj⟩ => ?_⟩
          cases i with
          | zero =>
            simp only [List.getElem?_cons_zero, Option.some.injEq, Except.ok.injEq] at h
            subst h; omega
          | succ i =>
            obtain ⟨w', hw', hf⟩ := hj 0 (by omega)
            simp only [List.getElem?_cons_zero, Option.some.injEq, Except.ok.injEq] at hw'
            subst hw'; rw [hm] at hf; cases hf
        | false =>
          rw [if_neg (by simp), ih]
          constructor
          · rintro ⟨i, w, h, hw, hj⟩
            refine ⟨i + 1, w, h, hw, fun j hj' => ?_⟩
            cases j with
            | zero => exact ⟨v, rfl, hm⟩
            | succ j => exact hj j (by omega)
          · rintro ⟨i, w, h, hw, hj⟩
            cases i with
            | zero =>
              simp only [List.getElem?_cons_zero, Option.some.injEq, Except.ok.injEq] at h
              subst h; omega
            | succ i => exact ⟨i, w, h, hw, fun j hj' => hj (j + 1) (by omega)⟩
      · rw [if_pos hv]
        exact ⟨fun _ => ⟨0, v, rfl, by omega, fun j hj => by omega⟩, fun _ => ⟨_, rfl⟩⟩

theorem firstApplying_outcome (size : Nat) (m : FreView → Bool) (vs : List (Except ReadError FreView)) :
    (firstApplying size m vs).Returns ∨ (firstApplying size m vs).Panics := by
  induction vs with
  | nil => exact .inl ⟨_, rfl⟩
  | cons x vs ih =>
    cases x with
    | error e => exact .inl ⟨_, rfl⟩
    | ok v =>
      unfold firstApplying
      split
      · exact .inr ⟨_, rfl⟩
      · split
        · exact .inl ⟨_, rfl⟩
        · exact ih

theorem seen_panics (x : Rust (Except ReadError (Option (FrameRowEntry o)))) : (seen x).Panics ↔ x.Panics := by
  cases x with
  | ok r => constructor <;> rintro ⟨p, h⟩ <;> cases h
  | panic p => exact ⟨fun _ => ⟨p, rfl⟩, fun _ => ⟨p, rfl⟩⟩
  | diverge => constructor <;> rintro ⟨p, h⟩ <;> cases h

theorem seen_returns (x : Rust (Except ReadError (Option (FrameRowEntry o)))) : (seen x).Returns ↔ x.Returns := by
  cases x with
  | ok r => exact ⟨fun _ => ⟨r, rfl⟩, fun _ => ⟨_, rfl⟩⟩
  | panic p => constructor <;> rintro ⟨p, h⟩ <;> cases h
  | diverge => constructor <;> rintro ⟨p, h⟩ <;> cases h

/-- **C125, rows**: exactly when the lookup of a row panics.  In a build with overflow checks the address is too far
from the start of the function; in any build the address is not before the function nor behind its end, and the lookup
comes to a row that starts outside the function. -/
theorem C125_rows_partial (dbg : Bool) (e : FuncDescEntry o) (a : I32) :
    ((e.getFreForAddress dbg a).Panics ↔
      (dbg = true ∧ FarBehind e a) ∨
      (e.startAddress.toInt ≤ a.toInt ∧ a.toInt ≤ e.startAddress.toInt + e.size.toNat ∧
        ¬ (e.fdetype = .pcMask ∧ e.repBlockSize = some 0) ∧
        Meets e.size.toNat
          (Applies e.fdetype ((e.repBlockSize.map BitVec.toNat).getD 0) (a.toInt - e.startAddress.toInt).toNat)
          (decodeFres o e.fde.info.toNat e.fde.numFres.toNat e.fres))) ∧
    (¬ (e.getFreForAddress dbg a).Panics → (e.getFreForAddress dbg a).Returns) := by
  by_cases hfar : dbg = true ∧ FarBehind e a
  · have hp : (e.getFreForAddress dbg a).Panics := by
      obtain ⟨rfl, h⟩ := hfar
      unfold FarBehind at h
      unfold FuncDescEntry.getFreForAddress
      rw [if_neg (by omega), subI32_overflow h]
      exact ⟨_, rfl⟩
    exact ⟨⟨fun _ => .inl hfar, fun _ => hp⟩, fun h => absurd hp h⟩
  · have hno := noOverflow_of hfar
    by_cases c1 : e.startAddress.toInt ≤ a.toInt
    · by_cases c2 : a.toInt ≤ e.startAddress.toInt + e.size.toNat
      · have h := lookup_views dbg e a c1 c2 hno
        rw [← seen_panics, ← seen_returns, h]
        by_cases hz : e.fdetype = .pcMask ∧ e.repBlockSize = some 0
        · rw [if_pos hz]
          exact ⟨⟨fun ⟨p, h⟩ => (by cases h), fun h => h.elim (absurd · hfar) fun h => absurd hz h.2.2.1⟩,
            fun _ => ⟨_, rfl⟩⟩
        · rw [if_neg hz, firstApplying_panics]
          exact ⟨⟨fun h => .inr ⟨c1, c2, hz, h⟩, fun h => h.elim (absurd · hfar) fun h => h.2.2.2⟩,
            fun h => (firstApplying_outcome ..).resolve_right fun h' => h ((firstApplying_panics ..).1 h')⟩
      · have : e.getFreForAddress dbg a = .ok (.ok none) :=
          C18_lookup_outside_partial (fun h => c2 (by have := h.2; omega)) (by omega) hno
        rw [this]
        exact ⟨⟨fun ⟨p, h⟩ => (by cases h), fun h => h.elim (absurd · hfar) fun h => absurd h.2.1 c2⟩,
          fun _ => ⟨_, rfl⟩⟩
    · have : e.getFreForAddress dbg a = .ok (.ok none) := by
        unfold FuncDescEntry.getFreForAddress
        rw [if_pos (by omega)]
      rw [this]
      exact ⟨⟨fun ⟨p, h⟩ => (by cases h), fun h => h.elim (absurd · hfar) fun h => absurd h.1 c1⟩,
        fun _ => ⟨_, rfl⟩⟩

/-- A row that starts outside the function is met only if no row before it applies. -/
example : let e : FuncDescEntry .little := { Samples.e0 with fres := [2, 3, 8, 0x20, 3, 16] }
    e.getFreForAddress false 0x1000 = .panic .assertion ∧
    seen (e.getFreForAddress false 0x1002) = .ok (.ok (some ⟨2, .sp, false, [8]⟩)) := by
  decide +kernel

end Verif
