import Verif.Props.Lookup
/-!
# Sorted lookups look at few functions: C115
-/

namespace Verif
open Spec

section
variable {α β : Type}

/-! ### One turn of the loops -/

theorem search152_end (f : α → Rust Ordering) (l : List α) (fuel : Nat) {left right : Nat} (size : Nat)
    (h : ¬ left < right) : search152 f l fuel left right size = .ok (.error left) := by
  unfold search152; rw [if_neg h]

theorem search152_stuck (f : α → Rust Ordering) (l : List α) {left right : Nat} (size : Nat)
    (h : left < right) : search152 f l 0 left right size = .diverge := by
  unfold search152; rw [if_pos h]

theorem search152_turn (f : α → Rust Ordering) (l : List α) (fuel : Nat) {left right : Nat} (size : Nat)
    (h : left < right) : search152 f l (fuel + 1) left right size =
      match l[left + size / 2]? with
      | none => .panic .sliceIndex
      | some x => (f x).bind fun
        | .eq => .ok (.ok (left + size / 2))
        | .lt => search152 f l fuel (left + size / 2 + 1) right (right - (left + size / 2 + 1))
        | .gt => search152 f l fuel left (left + size / 2) (left + size / 2 - left) := by
  rw [search152, if_pos h]
  simp only
  cases l[left + size / 2]? with
  | none => rfl
  | some x =>
    simp only
    congr 1
    funext cmp
    cases cmp <;> rfl

theorem search182_end (f : α → Rust Ordering) (l : List α) (fuel : Nat) (base : Nat) {size : Nat}
    (h : ¬ 1 < size) : search182 f l fuel base size =
      match l[base]? with
      | none => .panic .sliceIndex
      | some x => (f x).bind fun cmp =>
        if cmp == .eq then .ok (.ok base) else .ok (.error (base + if cmp == .lt then 1 else 0)) := by
  unfold search182; rw [if_neg h]; rfl

theorem search182_stuck (f : α → Rust Ordering) (l : List α) (base : Nat) {size : Nat}
    (h : 1 < size) : search182 f l 0 base size = .diverge := by
  unfold search182; rw [if_pos h]

theorem search182_turn (f : α → Rust Ordering) (l : List α) (fuel : Nat) (base : Nat) {size : Nat}
    (h : 1 < size) : search182 f l (fuel + 1) base size =
      match l[base + size / 2]? with
      | none => .panic .sliceIndex
      | some x => (f x).bind fun
        | .gt => search182 f l fuel base (size - size / 2)
        | .lt => search182 f l fuel (base + size / 2) (size - size / 2)
        | .eq => search182 f l fuel (base + size / 2) (size - size / 2) := by
  rw [search182, if_pos h]
  simp only
  cases l[base + size / 2]? with
  | none => rfl
  | some x =>
    simp only
    congr 1
    funext cmp
    cases cmp <;> rfl

/-! ### Other elements -/

theorem search152_map (f : β → Rust Ordering) (g : α → β) (l : List α) (fuel left right size : Nat) :
    search152 f (l.map g) fuel left right size = search152 (fun x => f (g x)) l fuel left right size := by
  induction fuel generalizing left right size with
  | zero => unfold search152; rfl
  | succ fuel ih =>
    by_cases h : left < right
    · rw [search152_turn _ _ _ _ h, search152_turn _ _ _ _ h, List.getElem?_map]
      cases l[left + size / 2]? with
      | none => rfl
      | some x => simp only [Option.map_some, ih]
    · rw [search152_end _ _ _ _ h, search152_end _ _ _ _ h]

theorem search182_map (f : β → Rust Ordering) (g : α → β) (l : List α) (fuel base size : Nat) :
    search182 f (l.map g) fuel base size = search182 (fun x => f (g x)) l fuel base size := by
  induction fuel generalizing base size with
  | zero =>
    by_cases h : 1 < size
    · rw [search182_stuck _ _ _ h, search182_stuck _ _ _ h]
    · rw [search182_end _ _ _ _ h, search182_end _ _ _ _ h, List.getElem?_map]
      cases l[base]? <;> rfl
  | succ fuel ih =>
    by_cases h : 1 < size
    · rw [search182_turn _ _ _ _ h, search182_turn _ _ _ _ h, List.getElem?_map]
      cases l[base + size / 2]? with
      | none => rfl
      | some x => simp only [Option.map_some, ih]
    · rw [search182_end _ _ _ _ h, search182_end _ _ _ _ h, List.getElem?_map]
      cases l[base]? <;> rfl

theorem binarySearchBy_map (alg : SearchAlg) (f : β → Rust Ordering) (g : α → β) (l : List α) :
    binarySearchBy alg f (l.map g) = binarySearchBy alg (fun x => f (g x)) l := by
  cases alg <;> simp only [binarySearchBy, List.length_map, search152_map, search182_map]

/-! ### What is looked at -/

/-- What the search finds depends only on the elements `is`. -/
def DependsOn (l : List α) (is : List Nat) (r : List α → Rust (Except Nat Nat)) : Prop :=
  (∀ l' : List α, (∀ i ∈ is, l'[i]? = l[i]?) → r l' = r l) ∧ ∀ k, r l = .ok (.ok k) → k ∈ is

theorem search152_few (f : α → Rust Ordering) (l : List α) (fuel left right : Nat) :
    ∃ is, (is = [] ∨ 2 ^ is.length ≤ 2 * (right - left)) ∧
      DependsOn l is fun l => search152 f l fuel left right (right - left) := by
  induction fuel generalizing left right with
  | zero =>
    refine ⟨[], .inl rfl, fun l' _ => by unfold search152; rfl, fun k h => ?_⟩
    unfold search152 at h
    split at h <;> cases h
  | succ fuel ih =>
    by_cases hlr : left < right
    · have h1 : 2 ^ [left + (right - left) / 2].length ≤ 2 * (right - left) := by simp; omega
      simp only [DependsOn, search152_turn f _ fuel _ hlr]
      cases hx : l[left + (right - left) / 2]? with
      | none =>
        refine ⟨[left + (right - left) / 2], .inr h1, fun l' h => ?_, fun k h => by cases h⟩
        rw [h _ (by simp), hx]
      | some x =>
        cases hf : f x with
        | panic p =>
          refine ⟨[left + (right - left) / 2], .inr h1, fun l' h => ?_, fun k h => by simp [hf] at h⟩
          rw [h _ (by simp), hx]
          simp [hf]
        | diverge =>
          refine ⟨[left + (right - left) / 2], .inr h1, fun l' h => ?_, fun k h => by simp [hf] at h⟩
          rw [h _ (by simp), hx]
          simp [hf]
        | ok cmp =>
          cases cmp with
          | eq =>
            refine ⟨[left + (right - left) / 2], .inr h1, fun l' h => ?_, fun k h => ?_⟩
            · rw [h _ (by simp), hx]
              simp [hf]
            · simp [hf] at h
              simp [h]
          | lt =>
            obtain ⟨is, h2, h3, h4⟩ := ih (left + (right - left) / 2 + 1) right
            refine ⟨(left + (right - left) / 2) :: is, .inr ?_, fun l' h => ?_, fun k h => ?_⟩
            · rcases h2 with rfl | h2
              · exact h1
              · rw [List.length_cons, Nat.pow_succ]; omega
            · rw [h _ (by simp), hx]
              simp only [hf, Rust.bind_ok]
              exact h3 l' fun i hi => h i (by simp [hi])
            · simp only [hf, Rust.bind_ok] at h
              exact List.mem_cons_of_mem _ (h4 k h)
          | gt =>
            obtain ⟨is, h2, h3, h4⟩ := ih left (left + (right - left) / 2)
            refine ⟨(left + (right - left) / 2) :: is, .inr ?_, fun l' h => ?_, fun k h => ?_⟩
            · rcases h2 with rfl | h2
              · exact h1
              · rw [List.length_cons, Nat.pow_succ]; omega
            · rw [h _ (by simp), hx]
              simp only [hf, Rust.bind_ok]
              exact h3 l' fun i hi => h i (by simp [hi])
            · simp only [hf, Rust.bind_ok] at h
              exact List.mem_cons_of_mem _ (h4 k h)
    · simp only [DependsOn, search152_end f _ _ _ hlr]
      exact ⟨[], .inl rfl, fun _ _ => trivial, fun k h => by cases h⟩

theorem search182_few (f : α → Rust Ordering) (l : List α) (fuel base size : Nat) (hs : 0 < size) :
    ∃ is, (size = 1 ∧ is.length = 1 ∨ 1 < size ∧ 2 ^ is.length ≤ 4 * (size - 1)) ∧
      DependsOn l is fun l => search182 f l fuel base size := by
  have hend : ∀ fuel base, DependsOn l [base] fun l => search182 f l fuel base 1 := by
    intro fuel base
    simp only [DependsOn, search182_end f _ _ base (by omega : ¬ 1 < 1)]
    refine ⟨fun l' h => by rw [h _ (by simp)], fun k h => ?_⟩
    cases hx : l[base]? with
    | none => rw [hx] at h; cases h
    | some x =>
      rw [hx] at h
      simp only at h
      obtain ⟨cmp, _, h⟩ := Rust.bind_eq_ok.1 h
      split at h
      · cases h; simp
      · cases h
  induction fuel generalizing base size with
  | zero =>
    by_cases h : 1 < size
    · simp only [DependsOn, search182_stuck f _ base h]
      exact ⟨[], .inr ⟨h, by simp; omega⟩, fun _ _ => trivial, fun k h => by cases h⟩
    · obtain rfl : size = 1 := by omega
      exact ⟨[base], .inl ⟨rfl, rfl⟩, hend 0 base⟩
  | succ fuel ih =>
    by_cases h : 1 < size
    · have h1 : 2 ^ [base + size / 2].length ≤ 4 * (size - 1) := by simp; omega
      simp only [DependsOn, search182_turn f _ fuel base h]
      cases hx : l[base + size / 2]? with
      | none =>
        refine ⟨[base + size / 2], .inr ⟨h, h1⟩, fun l' h => ?_, fun k h => by cases h⟩
        rw [h _ (by simp), hx]
      | some x =>
        have step : ∀ b, (∃ cmp, f x = .ok cmp ∧ b = match cmp with | .gt => base | _ => base + size / 2) →
            ∃ is, (size = 1 ∧ is.length = 1 ∨ 1 < size ∧ 2 ^ is.length ≤ 4 * (size - 1)) ∧ base + size / 2 ∈ is ∧
              DependsOn l is fun l => search182 f l fuel b (size - size / 2) := by
          intro b _
          obtain ⟨is, h2, h3, h4⟩ := ih b (size - size / 2) (by omega)
          refine ⟨(base + size / 2) :: is, .inr ⟨h, ?_⟩, by simp, fun l' h => h3 l' fun i hi => h i (by simp [hi]),
            fun k h => List.mem_cons_of_mem _ (h4 k h)⟩
          rw [List.length_cons, Nat.pow_succ]
          rcases h2 with ⟨h2, h5⟩ | ⟨h2, h5⟩
          · rw [h5]; omega
          · omega
        cases hf : f x with
        | panic p =>
          refine ⟨[base + size / 2], .inr ⟨h, h1⟩, fun l' h => ?_, fun k h => by simp [hf] at h⟩
          rw [h _ (by simp), hx]
          simp [hf]
        | diverge =>
          refine ⟨[base + size / 2], .inr ⟨h, h1⟩, fun l' h => ?_, fun k h => by simp [hf] at h⟩
          rw [h _ (by simp), hx]
          simp [hf]
        | ok cmp =>
          obtain ⟨is, h2, hm, h3, h4⟩ := step _ ⟨cmp, hf, rfl⟩
          refine ⟨is, h2, fun l' h => ?_, fun k h => ?_⟩
          · rw [h _ hm, hx]
            simp only [hf, Rust.bind_ok]
            have := h3 l' h
            cases cmp <;> exact this
          · simp only [hf, Rust.bind_ok] at h
            refine h4 k ?_
            cases cmp <;> exact h
    · obtain rfl : size = 1 := by omega
      exact ⟨[base], .inl ⟨rfl, rfl⟩, hend _ base⟩

theorem binarySearchBy_few (alg : SearchAlg) (f : α → Rust Ordering) (l : List α) :
    ∃ is : List Nat, is.length ≤ Nat.log2 l.length + 2 ∧
      (∀ l' : List α, l'.length = l.length → (∀ i ∈ is, l'[i]? = l[i]?) →
        binarySearchBy alg f l' = binarySearchBy alg f l) ∧
      ∀ k, binarySearchBy alg f l = .ok (.ok k) → k ∈ is := by
  have hlog : ∀ n m : Nat, 2 ^ m ≤ 4 * n → m ≤ Nat.log2 n + 2 := by
    intro n m h
    by_cases hm : m ≤ 2
    · omega
    · have h2 : 2 ^ m = 4 * 2 ^ (m - 2) := by
        rw [show m = (m - 2) + 2 by omega, Nat.pow_add]
        simp; omega
      have h3 : 2 ^ (m - 2) ≤ n := by omega
      have hn : n ≠ 0 := by
        have := Nat.two_pow_pos (m - 2)
        omega
      have := (Nat.le_log2 hn).2 h3
      omega
  cases alg with
  | v152 =>
    obtain ⟨is, h1, h2, h3⟩ := search152_few f l l.length 0 l.length
    refine ⟨is, ?_, fun l' hl hi => ?_, h3⟩
    · rcases h1 with rfl | h1
      · simp
      · exact hlog _ _ (by omega)
    · simp only [binarySearchBy, hl]
      exact h2 l' hi
  | v182 =>
    by_cases hl : l.length = 0
    · refine ⟨[], by simp, fun l' h _ => ?_, fun k h => ?_⟩
      · simp only [binarySearchBy, hl, h, if_true]
      · simp [binarySearchBy, hl] at h
    · obtain ⟨is, h1, h2, h3⟩ := search182_few f l l.length 0 l.length (by omega)
      refine ⟨is, ?_, fun l' h hi => ?_, fun k h => ?_⟩
      · rcases h1 with ⟨_, h1⟩ | ⟨_, h1⟩
        · omega
        · exact hlog _ _ (by omega)
      · simp only [binarySearchBy, h, hl, if_false]
        exact h2 l' hi
      · simp only [binarySearchBy, hl, if_false] at h
        exact h3 k h

end

/-! ### Sections -/

variable {o : Endian}

theorem nth_fst (it : FuncDescIter o) (n : Nat) : (it.nth n).1 = it.fdes[n]?.map fun fde => ⟨fde, it.fres⟩ := by
  unfold FuncDescIter.nth
  rw [← List.head?_drop]
  cases it.fdes.drop n <;> rfl

theorem sorted_lookup (alg : SearchAlg) (dbg : Bool) (s : SFrame o) (address : I32)
    (h : Flags.contains s.flags Flags.FDE_SORTED = true) :
    s.fdeForAddress alg dbg address =
      (binarySearchBy alg (fun fde => SFrame.searchCmp dbg address fde.startAddress fde.size) s.fdes.toList).bind fun
      | .error _ => .ok none
      | .ok i => .ok (s.fdes.toList[i]?.map fun fde => ⟨fde, s.fres⟩) := by
  unfold SFrame.fdeForAddress
  rw [if_neg (by simp [h])]
  simp only [nth_fst, SFrame.iter]
  cases s.fdes <;> simp only [FdeList.toList, binarySearchBy_map] <;> rfl

/-- **C115.**  A lookup in a section that says it is sorted looks at no more than log2(n) + 2 of its n functions: with any
other functions in the other places the answer is the same, be it a function, none or a panic. -/
theorem C115_few (alg : SearchAlg) (dbg : Bool) (s : SFrame o) (address : I32)
    (h : Flags.contains s.flags Flags.FDE_SORTED = true) :
    ∃ is : List Nat, is.length ≤ Nat.log2 s.fdes.toList.length + 2 ∧
      ∀ s' : SFrame o, s'.flags = s.flags → s'.fres = s.fres → s'.fdes.toList.length = s.fdes.toList.length →
        (∀ i ∈ is, s'.fdes.toList[i]? = s.fdes.toList[i]?) →
        s'.fdeForAddress alg dbg address = s.fdeForAddress alg dbg address := by
  obtain ⟨is, h1, h2, h3⟩ := binarySearchBy_few alg
    (fun fde : Fde => SFrame.searchCmp dbg address fde.startAddress fde.size) s.fdes.toList
  refine ⟨is, h1, fun s' hf hr hl hi => ?_⟩
  rw [sorted_lookup alg dbg s address h, sorted_lookup alg dbg s' address (hf ▸ h), h2 _ hl hi, hr]
  cases hb : binarySearchBy alg (fun fde : Fde => SFrame.searchCmp dbg address fde.startAddress fde.size)
      s.fdes.toList with
  | ok r =>
    cases r with
    | error => rfl
    | ok k => simp only [Rust.bind_ok, hi k (h3 k hb)]
  | _ => rfl

namespace Samples

/-- A sorted section with `n` functions of four bytes each. -/
def many (n : Nat) : SFrame .little :=
  { v2F with fdes := .v2 ((List.range n).map fun i =>
      { startAddress := BitVec.ofNat 32 (4 * i), size := 4, startFreOff := 0, numFres := 0, info := 0, repSize := 0,
        padding2 := 0 }) }

end Samples

/-- Of nine functions the lookup of the fifth looks only at that one, in the older version of the standard library;
the other eight do not matter. -/
example : Flags.contains (Samples.many 9).flags Flags.FDE_SORTED = true ∧
    (∃ e, (Samples.many 9).fdeForAddress .v152 true 17 = .ok (some e) ∧ e.startAddress = 16) ∧
    ∃ s' : SFrame .little, s'.flags = (Samples.many 9).flags ∧ s'.fres = (Samples.many 9).fres ∧
      s'.fdes.toList.length = 9 ∧ s'.fdes.toList[4]? = (Samples.many 9).fdes.toList[4]? ∧
      s'.fdes.toList[3]? ≠ (Samples.many 9).fdes.toList[3]? ∧
      s'.fdeForAddress .v152 true 17 = (Samples.many 9).fdeForAddress .v152 true 17 := by
  refine ⟨by decide +kernel, ⟨_, rfl, by decide +kernel⟩,
    { Samples.many 9 with fdes := .v2 (List.replicate 9 { startAddress := 16, size := 4, startFreOff := 0, numFres := 0, info := 0, repSize := 0, padding2 := 0 }) },
    rfl, rfl, ?_⟩
  decide +kernel

end Verif
