import Verif.Proofs.Iter
import Verif.Proofs.Fre
/-!
# Address arithmetic, row scans and binary search
-/

namespace Verif
open Spec

variable {o : Endian}

/-- An `i32` difference of ordered operands, as an unsigned number. -/
theorem sub_toNat {a b : I32} (h : b.toInt ≤ a.toInt) : ((a - b).toNat : Int) = a.toInt - b.toInt := by
  have h1 := a.isLt
  have h2 := b.isLt
  have h3 := BitVec.toInt_eq_toNat_cond a
  have h4 := BitVec.toInt_eq_toNat_cond b
  have h5 := BitVec.toNat_sub a b
  split at h3 <;> split at h4 <;> omega

theorem toInt_bounds (a : I32) : -2147483648 ≤ a.toInt ∧ a.toInt ≤ 2147483647 := by
  have h1 := a.isLt
  have h3 := BitVec.toInt_eq_toNat_cond a
  split at h3 <;> omega

theorem subI32_ok {dbg : Bool} {a b : I32} (h : b.toInt ≤ a.toInt)
    (hd : dbg = true → a.toInt - b.toInt ≤ 2147483647) : subI32 dbg a b = .ok (a - b) := by
  unfold subI32
  cases dbg with
  | false => simp
  | true =>
    have := hd rfl
    rw [if_neg]
    simp
    omega

theorem subI32_overflow {a b : I32} (h : 2147483647 < a.toInt - b.toInt) :
    subI32 true a b = .panic .overflow := by
  unfold subI32
  rw [if_pos]
  simp
  omega

/-! ### Binary search -/

section
variable {α : Type} {f : α → Rust Ordering} {l : List α}

theorem search152_found {fuel left right size i : Nat}
    (h : search152 f l fuel left right size = .ok (.ok i)) :
    ∃ x, l[i]? = some x ∧ f x = .ok .eq := by
  induction fuel generalizing left right size with
  | zero => unfold search152 at h; split at h <;> cases h
  | succ fuel ih =>
    unfold search152 at h
    split at h
    · simp only at h
      split at h
      · cases h
      · rename_i x hx
        rw [Rust.bind_eq_ok] at h
        obtain ⟨c, hc, h⟩ := h
        split at h
        · rename_i heq
          simp only [Rust.ok.injEq, Except.ok.injEq] at h
          subst h
          have : c = .eq := by simpa using heq
          exact ⟨x, hx, this ▸ hc⟩
        · exact ih h
    · cases h

theorem search182_found {fuel base size i : Nat}
    (h : search182 f l fuel base size = .ok (.ok i)) :
    ∃ x, l[i]? = some x ∧ f x = .ok .eq := by
  induction fuel generalizing base size with
  | zero =>
    unfold search182 at h
    split at h
    · cases h
    · split at h
      · cases h
      · rename_i x hx
        rw [Rust.bind_eq_ok] at h
        obtain ⟨c, hc, h⟩ := h
        split at h
        · rename_i heq
          simp only [Rust.ok.injEq, Except.ok.injEq] at h
          subst h
          have : c = .eq := by simpa using heq
          exact ⟨x, hx, this ▸ hc⟩
        · cases h
  | succ fuel ih =>
    unfold search182 at h
    split at h
    · simp only at h
      split at h
      · cases h
      · rename_i x hx
        rw [Rust.bind_eq_ok] at h
        obtain ⟨c, hc, h⟩ := h
        exact ih h
    · split at h
      · cases h
      · rename_i x hx
        rw [Rust.bind_eq_ok] at h
        obtain ⟨c, hc, h⟩ := h
        split at h
        · rename_i heq
          simp only [Rust.ok.injEq, Except.ok.injEq] at h
          subst h
          have : c = .eq := by simpa using heq
          exact ⟨x, hx, this ▸ hc⟩
        · cases h

/-- A successful binary search points at an element that compares equal. -/
theorem binarySearchBy_found {alg : SearchAlg} {i : Nat}
    (h : binarySearchBy alg f l = .ok (.ok i)) : ∃ x, l[i]? = some x ∧ f x = .ok .eq := by
  cases alg with
  | v152 => exact search152_found h
  | v182 =>
    simp only [binarySearchBy] at h
    split at h
    · cases h
    · exact search182_found h

/-- A search over an interval without equal elements fails. -/
theorem search152_none (g : α → Ordering) (hf : ∀ x ∈ l, f x = .ok (g x))
    {fuel left right : Nat} (hr : right ≤ l.length) (hfuel : right - left ≤ fuel)
    (hne : ∀ i x, left ≤ i → i < right → l[i]? = some x → g x ≠ .eq) :
    ∃ e, search152 f l fuel left right (right - left) = .ok (.error e) := by
  induction fuel generalizing left right with
  | zero => unfold search152; rw [if_neg (by omega)]; exact ⟨_, rfl⟩
  | succ fuel ih =>
    unfold search152
    by_cases hlt : left < right
    · rw [if_pos hlt]
      have hmid : left + (right - left) / 2 < l.length := by omega
      have hx : l[left + (right - left) / 2]? = some l[left + (right - left) / 2] :=
        List.getElem?_eq_getElem hmid
      simp only [hx]
      have hg := hf _ (List.getElem_mem hmid)
      have hn := hne _ _ (by omega) (by omega) hx
      rw [hg]
      simp only [Rust.bind_ok]
      cases hc : g l[left + (right - left) / 2] with
      | eq => exact absurd hc hn
      | lt =>
        simp only [beq_self_eq_true, if_true, Bool.false_eq_true, if_false, show (Ordering.lt == Ordering.gt) = false from rfl,
          show (Ordering.lt == Ordering.eq) = false from rfl]
        exact ih hr (by omega) (fun i x h1 h2 => hne i x (by omega) h2)
      | gt =>
        simp only [beq_self_eq_true, if_true, Bool.false_eq_true, if_false, show (Ordering.gt == Ordering.lt) = false from rfl,
          show (Ordering.gt == Ordering.eq) = false from rfl]
        exact ih (by omega) (by omega) (fun i x h1 h2 => hne i x (by omega) (by omega))
    · rw [if_neg hlt]; exact ⟨_, rfl⟩

theorem search182_none (g : α → Ordering) (hf : ∀ x ∈ l, f x = .ok (g x))
    {fuel base size : Nat} (hs : 1 ≤ size) (hr : base + size ≤ l.length) (hfuel : size ≤ fuel + 1)
    (hne : ∀ i x, base ≤ i → i < base + size → l[i]? = some x → g x ≠ .eq) :
    ∃ e, search182 f l fuel base size = .ok (.error e) := by
  have last : ∀ base, base < l.length → (∀ x, l[base]? = some x → g x ≠ .eq) →
      ∃ e : Nat, (match l[base]? with
        | none => Rust.panic .sliceIndex
        | some x => (f x).bind fun cmp =>
          if cmp == Ordering.eq then .ok (.ok base)
          else .ok (.error (base + if cmp == Ordering.lt then 1 else 0)) : Rust (Except Nat Nat)) =
        .ok (.error e) := by
    intro base hb hne
    have hx : l[base]? = some l[base] := List.getElem?_eq_getElem hb
    have := hne _ hx
    rw [hx]
    simp only [hf _ (List.getElem_mem hb), Rust.bind_ok]
    rw [if_neg (by simpa using this)]
    exact ⟨_, rfl⟩
  induction fuel generalizing base size with
  | zero =>
    unfold search182
    rw [if_neg (by omega)]
    exact last base (by omega) (fun x => hne base x (by omega) (by omega))
  | succ fuel ih =>
    unfold search182
    by_cases hlt : 1 < size
    · rw [if_pos hlt]
      have hmid : base + size / 2 < l.length := by omega
      have hx : l[base + size / 2]? = some l[base + size / 2] := List.getElem?_eq_getElem hmid
      simp only [hx]
      rw [hf _ (List.getElem_mem hmid)]
      simp only [Rust.bind_ok]
      split
      · exact ih (by omega) (by omega) (by omega) (fun i x h1 h2 => hne i x (by omega) (by omega))
      · exact ih (by omega) (by omega) (by omega) (fun i x h1 h2 => hne i x (by omega) (by omega))
    · rw [if_neg hlt]
      exact last base (by omega) (fun x => hne base x (by omega) (by omega))

/-- What the old algorithm finds in a slice where exactly element `k` compares equal, all elements
before it `Greater` and all after it `Less` (the order opposite to what the algorithm expects). -/
theorem search152_inverted (g : α → Ordering) (hf : ∀ x ∈ l, f x = .ok (g x)) {k : Nat}
    (hk : k < l.length)
    (hg : ∀ i x, l[i]? = some x → g x = if i < k then .gt else if i = k then .eq else .lt) :
    (k = l.length / 2 → binarySearchBy .v152 f l = .ok (.ok k)) ∧
    (k ≠ l.length / 2 → ∃ e, binarySearchBy .v152 f l = .ok (.error e)) := by
  have hpos : 0 < l.length := by omega
  obtain ⟨n, hn⟩ : ∃ n, l.length = n + 1 := ⟨l.length - 1, by omega⟩
  have hmid : 0 + l.length / 2 < l.length := by omega
  have hx : l[0 + l.length / 2]? = some l[0 + l.length / 2] := List.getElem?_eq_getElem hmid
  have hgx := hg _ _ hx
  have hstep : ∀ c, g l[0 + l.length / 2] = c →
      search152 f l (n + 1) 0 l.length l.length =
      (let left' := if c == .lt then (0 + l.length / 2) + 1 else 0
       let right' := if c == .gt then (0 + l.length / 2) else l.length
       if c == .eq then .ok (.ok (0 + l.length / 2))
       else search152 f l n left' right' (right' - left')) := by
    intro c hc
    conv => lhs; unfold search152
    rw [if_pos hpos]
    simp only [hx, hf _ (List.getElem_mem hmid), Rust.bind_ok, hc]
  have hunf : binarySearchBy .v152 f l = search152 f l (n + 1) 0 l.length l.length := by
    simp only [binarySearchBy]; rw [← hn]
  rw [hunf]
  refine ⟨fun h => ?_, fun h => ?_⟩
  · rw [if_neg (by omega), if_pos (by omega)] at hgx
    rw [hstep _ hgx]
    simp [h]
  · by_cases hlt : 0 + l.length / 2 < k
    · rw [if_pos hlt] at hgx
      rw [hstep _ hgx]
      simp only [if_true, Bool.false_eq_true, if_false, show (Ordering.gt == Ordering.lt) = false from rfl,
        show (Ordering.gt == Ordering.eq) = false from rfl, beq_self_eq_true]
      exact search152_none g hf (by omega) (by omega) (fun i x h1 h2 hx => by
        rw [hg i x hx, if_pos (by omega)]; simp)
    · rw [if_neg hlt, if_neg (show ¬ 0 + l.length / 2 = k by omega)] at hgx
      rw [hstep _ hgx]
      simp only [beq_self_eq_true, if_true, Bool.false_eq_true, if_false, show (Ordering.lt == Ordering.gt) = false from rfl,
        show (Ordering.lt == Ordering.eq) = false from rfl]
      exact search152_none g hf (by omega) (by omega) (fun i x h1 h2 hx => by
        rw [hg i x hx, if_neg (show ¬ i < k by omega), if_neg (show ¬ i = k by omega)]; simp)

/-- The same for the new algorithm: it finds the element only in slices of length 1 and, in slices of
length 2, only the second one. -/
theorem search182_inverted (g : α → Ordering) (hf : ∀ x ∈ l, f x = .ok (g x)) {k : Nat}
    (hk : k < l.length)
    (hg : ∀ i x, l[i]? = some x → g x = if i < k then .gt else if i = k then .eq else .lt) :
    (l.length = 1 ∨ l.length = 2 ∧ k = 1 → binarySearchBy .v182 f l = .ok (.ok k)) ∧
    (¬ (l.length = 1 ∨ l.length = 2 ∧ k = 1) → ∃ e, binarySearchBy .v182 f l = .ok (.error e)) := by
  have hstep : ∀ fuel base size, 1 < size → base + size ≤ l.length →
      search182 f l (fuel + 1) base size =
        search182 f l fuel (if base + size / 2 < k then base else base + size / 2)
          (size - size / 2) := by
    intro fuel base size h1 h2
    have hmid : base + size / 2 < l.length := by omega
    have hx : l[base + size / 2]? = some l[base + size / 2] := List.getElem?_eq_getElem hmid
    conv => lhs; unfold search182
    rw [if_pos h1]
    simp only [hx, hf _ (List.getElem_mem hmid), Rust.bind_ok, hg _ _ hx]
    congr 1
    by_cases h : base + size / 2 < k
    · simp [h]
    · by_cases h' : base + size / 2 = k
      · simp [h']
      · simp [h, h']
  have hlast : ∀ fuel base, base < l.length → base = k → search182 f l fuel base 1 = .ok (.ok k) := by
    intro fuel base hb hbk
    have hx : l[base]? = some l[base] := List.getElem?_eq_getElem hb
    unfold search182
    rw [if_neg (by omega), hx]
    simp only [hf _ (List.getElem_mem hb), Rust.bind_ok, hg _ _ hx]
    subst hbk
    simp
  have hnone : ∀ fuel base size, 1 ≤ size → base + size ≤ l.length → size ≤ fuel + 1 →
      (k < base ∨ base + size ≤ k) → ∃ e, search182 f l fuel base size = .ok (.error e) := by
    intro fuel base size h1 h2 h3 h4
    refine search182_none g hf h1 h2 h3 (fun i x h5 h6 hx => ?_)
    rw [hg i x hx]
    rcases h4 with h4 | h4
    · rw [if_neg (by omega), if_neg (by omega)]; simp
    · rw [if_pos (by omega)]; simp
  have hunf : binarySearchBy .v182 f l = search182 f l l.length 0 l.length := by
    simp only [binarySearchBy]; rw [if_neg (by omega)]
  rw [hunf]
  refine ⟨fun h => ?_, fun h => ?_⟩
  · rcases h with h | ⟨h, h'⟩
    · rw [show search182 f l l.length 0 l.length = search182 f l l.length 0 1 by rw [h]]
      exact hlast _ _ (by omega) (by omega)
    · rw [show search182 f l l.length 0 l.length = search182 f l (1 + 1) 0 2 by rw [h]]
      rw [hstep 1 0 2 (by omega) (by omega)]
      rw [if_neg (by omega)]
      exact hlast _ _ (by omega) (by omega)
  · obtain ⟨n, hn⟩ : ∃ n, l.length = n + 1 + 1 := ⟨l.length - 2, by omega⟩
    rw [show search182 f l l.length 0 l.length = search182 f l (n + 1 + 1) 0 l.length by rw [← hn]]
    rw [hstep _ 0 l.length (by omega) (by omega)]
    by_cases h1 : 0 + l.length / 2 < k
    · rw [if_pos h1]
      exact hnone _ _ _ (by omega) (by omega) (by omega) (by omega)
    · rw [if_neg h1]
      by_cases h2 : 0 + l.length / 2 = k
      · rw [hstep _ _ _ (by omega) (by omega)]
        rw [if_neg (by omega)]
        exact hnone _ _ _ (by omega) (by omega) (by omega) (by omega)
      · exact hnone _ _ _ (by omega) (by omega) (by omega) (by omega)

end

/-! ### Row scans -/

/-- The first item of an iteration that is an error or satisfies `p`. -/
def firstHit (p : FrameRowEntry o → Bool) :
    List (Except ReadError (FrameRowEntry o)) → Except ReadError (Option (FrameRowEntry o))
  | [] => .ok none
  | .error e :: _ => .error e
  | .ok r :: rs => if p r then .ok (some r) else firstHit p rs

/-- The scan, as a recursion on the number of rows. -/
def scanRows (o : Endian) (p : FrameRowEntry o → Bool) (fde : Fde) :
    Nat → List U8 → Rust (Except ReadError (Option (FrameRowEntry o)))
  | 0, _ => .ok (.ok none)
  | n + 1, fres =>
    (FrameRowEntry.load o fde fres).bind fun
    | .ok (r, rest) => if p r then .ok (.ok (some r)) else scanRows o p fde n rest
    | .error e => .ok (.error e)

theorem FrameRowIter.scanFuel_eq (p : FrameRowEntry o → Bool) (fuel : Nat) (it : FrameRowIter o)
    (h : it.fde.numFres.toNat - it.index.toNat ≤ fuel) :
    FrameRowIter.scanFuel p fuel it
      = scanRows o p it.fde (it.fde.numFres.toNat - it.index.toNat) it.fres := by
  induction fuel generalizing it with
  | zero =>
    unfold FrameRowIter.scanFuel
    rw [FrameRowIter.next_done (by omega), show it.fde.numFres.toNat - it.index.toNat = 0 by omega]
    rfl
  | succ fuel ih =>
    unfold FrameRowIter.scanFuel
    by_cases hd : it.fde.numFres.toNat ≤ it.index.toNat
    · rw [FrameRowIter.next_done hd, show it.fde.numFres.toNat - it.index.toNat = 0 by omega]
      rfl
    · obtain ⟨n, hn⟩ : ∃ n, it.fde.numFres.toNat - it.index.toNat = n + 1 :=
        ⟨it.fde.numFres.toNat - it.index.toNat - 1, by omega⟩
      rw [hn]
      simp only [FrameRowIter.next, hd, if_false, scanRows]
      cases hl : FrameRowEntry.load o it.fde it.fres with
      | panic p => rfl
      | diverge => rfl
      | ok r =>
        cases r with
        | ok r =>
          obtain ⟨r, rest⟩ := r
          simp only [Rust.bind_ok]
          have hi := index_succ (i := it.index) (n := it.fde.numFres) (by omega)
          rw [ih _ (by simp only [hi]; omega)]
          simp only [hi]
          rw [show it.fde.numFres.toNat - (it.index.toNat + 1) = n by omega]
        | error e => rfl

theorem FuncDescEntry.scan_eq (e : FuncDescEntry o) (p : FrameRowEntry o → Bool) :
    e.iter.scan p = scanRows o p e.fde e.fde.numFres.toNat e.fres := by
  unfold FrameRowIter.scan
  rw [FrameRowIter.scanFuel_eq _ _ _ (Nat.sub_le _ _)]
  rfl

theorem scanRows_of_readRows {fde : Fde} {n : Nat} {fres : List U8}
    {rs : List (Except ReadError (FrameRowEntry o))} (p : FrameRowEntry o → Bool)
    (h : readRows o fde n fres = .ok rs) : scanRows o p fde n fres = .ok (firstHit p rs) := by
  induction n generalizing fres rs with
  | zero => simp only [readRows, Rust.ok.injEq] at h; subst h; rfl
  | succ n ih =>
    unfold readRows at h
    rw [Rust.bind_eq_ok] at h
    obtain ⟨x, hx, h⟩ := h
    unfold scanRows
    rw [hx]
    cases x with
    | error e => simp only [Rust.ok.injEq] at h; subst h; rfl
    | ok r =>
      simp only [Rust.bind_eq_ok] at h
      obtain ⟨rs', h', h⟩ := h
      simp only [Rust.ok.injEq] at h
      subst h
      simp only [Rust.bind_ok, firstHit]
      split
      · rfl
      · exact ih h'

theorem FuncDescEntry.scan_of_collect (e : FuncDescEntry o) (p : FrameRowEntry o → Bool)
    {rs : List (Except ReadError (FrameRowEntry o))} (h : e.iter.collect = .ok rs) :
    e.iter.scan p = .ok (firstHit p rs) := by
  rw [FuncDescEntry.scan_eq]
  rw [FuncDescEntry.collect_eq] at h
  exact scanRows_of_readRows p h

/-! ### Range checks -/

theorem contains_eq {dbg : Bool} (e : FuncDescEntry o) (a : I32)
    (hd : dbg = true → a.toInt - e.startAddress.toInt ≤ 2147483647) :
    e.contains dbg a = .ok (decide (e.startAddress.toInt ≤ a.toInt ∧
      a.toInt < e.startAddress.toInt + e.size.toNat)) := by
  unfold FuncDescEntry.contains
  simp only
  by_cases h : a.toInt < e.startAddress.toInt
  · rw [if_pos h]; congr 1; simp; omega
  · rw [if_neg h, subI32_ok (by omega) hd]
    have := sub_toNat (a := a) (b := e.startAddress) (by omega)
    simp only [Rust.bind_ok]
    congr 1
    simp only [decide_eq_decide]
    omega

theorem searchCmp_eq {dbg : Bool} (a start : I32) (size : U32)
    (hd : dbg = true → a.toInt - start.toInt ≤ 2147483647) :
    SFrame.searchCmp dbg a start size = .ok (
      if a.toInt < start.toInt then .lt
      else if start.toInt + size.toNat ≤ a.toInt then .gt else .eq) := by
  unfold SFrame.searchCmp
  by_cases h : a.toInt < start.toInt
  · rw [if_pos h, if_pos h]
  · rw [if_neg h, if_neg h, subI32_ok (by omega) hd]
    have := sub_toNat (a := a) (b := start) (by omega)
    simp only [Rust.bind_ok]
    by_cases h2 : start.toInt + size.toNat ≤ a.toInt
    · rw [if_pos h2, if_pos (by omega)]
    · rw [if_neg h2, if_neg (by omega)]

theorem searchCmp_eq_eq {dbg : Bool} {a start : I32} {size : U32}
    (h : SFrame.searchCmp dbg a start size = .ok .eq) :
    start.toInt ≤ a.toInt ∧ a.toInt < start.toInt + size.toNat := by
  unfold SFrame.searchCmp at h
  split at h
  · cases h
  · rename_i hlt
    rw [Rust.bind_eq_ok] at h
    obtain ⟨d, hd, h⟩ := h
    have hda : d = a - start := by
      unfold subI32 at hd; split at hd
      · cases hd
      · simpa using hd.symm
    have := sub_toNat (a := a) (b := start) (by omega)
    subst hda
    split at h
    · cases h
    · omega

theorem contains_true {dbg : Bool} {e : FuncDescEntry o} {a : I32}
    (h : e.contains dbg a = .ok true) :
    e.startAddress.toInt ≤ a.toInt ∧ a.toInt < e.startAddress.toInt + e.size.toNat := by
  unfold FuncDescEntry.contains at h
  simp only at h
  split at h
  · cases h
  · rename_i hlt
    rw [Rust.bind_eq_ok] at h
    obtain ⟨d, hd, h⟩ := h
    have hda : d = a - e.startAddress := by
      unfold subI32 at hd; split at hd
      · cases hd
      · simpa using hd.symm
    have := sub_toNat (a := a) (b := e.startAddress) (by omega)
    subst hda
    rw [Rust.ok.injEq, decide_eq_true_eq] at h
    omega

/-- The binary search of `fde_for_address`, on the list of tagged table elements. -/
theorem fdeForAddress_sorted (alg : SearchAlg) (dbg : Bool) (s : SFrame o) (a : I32)
    (h : Flags.contains s.flags Flags.FDE_SORTED = true) :
    s.fdeForAddress alg dbg a =
      (binarySearchBy alg (fun fde : Fde => SFrame.searchCmp dbg a fde.startAddress fde.size)
        s.fdes.toList).bind fun
      | .error _ => .ok none
      | .ok index => .ok (s.iter.nth index).1 := by
  have map152 : ∀ {α : Type} (g : α → Fde) (f : Fde → Rust Ordering) (l : List α) (fuel left right size : Nat),
      search152 (fun x => f (g x)) l fuel left right size
        = search152 f (l.map g) fuel left right size := by
    intro α g f l fuel
    induction fuel with
    | zero => intro left right size; unfold search152; rfl
    | succ fuel ih =>
      intro left right size
      unfold search152
      simp only [List.getElem?_map, ih]
      split
      · cases l[left + size / 2]? <;> rfl
      · rfl
  have map182 : ∀ {α : Type} (g : α → Fde) (f : Fde → Rust Ordering) (l : List α) (fuel base size : Nat),
      search182 (fun x => f (g x)) l fuel base size
        = search182 f (l.map g) fuel base size := by
    intro α g f l fuel
    induction fuel with
    | zero =>
      intro base size; unfold search182; simp only [List.getElem?_map]
      split
      · rfl
      · cases l[base]? <;> rfl
    | succ fuel ih =>
      intro base size
      unfold search182
      simp only [List.getElem?_map, ih]
      split
      · cases l[base + size / 2]? <;> rfl
      · cases l[base]? <;> rfl
  have hmap : ∀ {α : Type} (g : α → Fde) (f : Fde → Rust Ordering) (l : List α),
      binarySearchBy alg (fun x => f (g x)) l = binarySearchBy alg f (l.map g) := by
    intro α g f l
    unfold binarySearchBy
    cases alg with
    | v152 => simp only [List.length_map]; exact map152 g f l _ _ _ _
    | v182 => simp only [List.length_map, map182 g f l]
  unfold SFrame.fdeForAddress
  rw [if_neg (by simp [h])]
  cases hf : s.fdes with
  | v1 l =>
    simp only [FdeList.toList]
    rw [← hmap]; rfl
  | v2 l =>
    simp only [FdeList.toList]
    rw [← hmap]; rfl

end Verif
