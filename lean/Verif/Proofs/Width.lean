import Verif.Proofs.Sizes
/-!
# When the chosen offset width holds every offset of a row
-/

namespace Verif
open Spec SFrameBuilder

theorem foldl_larger (vs : List Int) (a : Int) :
    (∀ v ∈ vs, v.natAbs ≤ (vs.foldl larger a).natAbs) ∧ a.natAbs ≤ (vs.foldl larger a).natAbs ∧
    (vs.foldl larger a = a ∨
      (a.natAbs < (vs.foldl larger a).natAbs ∧
        vs.find? (fun v => decide (v.natAbs = (vs.foldl larger a).natAbs))
          = some (vs.foldl larger a))) := by
  induction vs generalizing a with
  | nil => simp
  | cons v vs ih =>
    obtain ⟨h1, h2, h3⟩ := ih (larger a v)
    rw [List.foldl_cons]
    have hl : a.natAbs ≤ (larger a v).natAbs ∧ v.natAbs ≤ (larger a v).natAbs := by
      unfold larger; split <;> omega
    refine ⟨?_, by omega, ?_⟩
    · intro w hw
      rcases List.mem_cons.1 hw with rfl | hw
      · omega
      · exact h1 w hw
    · rcases h3 with h3 | ⟨h3, h4⟩
      · by_cases hlt : a.natAbs < v.natAbs
        · right
          have : larger a v = v := by unfold larger; rw [if_pos hlt]
          rw [h3, this]
          exact ⟨hlt, by simp⟩
        · left
          rw [h3]; unfold larger; rw [if_neg hlt]
      · right
        refine ⟨by omega, ?_⟩
        rw [List.find?_cons_of_neg (by rw [decide_eq_true_eq]; omega)]
        exact h4

theorem firstLargest_spec (vs : List Int) :
    (∀ v ∈ vs, v.natAbs ≤ (firstLargest vs).natAbs) ∧
    (firstLargest vs = 0 ∨ firstLargest vs ∈ vs) ∧
    (firstLargest vs ≠ 0 →
      vs.find? (fun v => decide (v.natAbs = (firstLargest vs).natAbs)) = some (firstLargest vs)) := by
  rw [firstLargest_foldl]
  obtain ⟨h1, h2, h3⟩ := foldl_larger vs 0
  refine ⟨h1, ?_, ?_⟩
  · rcases h3 with h | ⟨_, h⟩
    · exact .inl h
    · exact .inr (List.mem_of_find?_eq_some h)
  · intro hne
    rcases h3 with h | ⟨_, h⟩
    · exact absurd h hne
    · exact h

/-- The width chosen for the first of the largest values. -/
def widthFor (m : Int) : Nat := if FitsIn 1 m then 1 else if FitsIn 2 m then 2 else 4

theorem widthFor_fits (vs : List Int) (h32 : ∀ v ∈ vs, FitsIn 4 v) :
    (∀ v ∈ vs, FitsIn (widthFor (firstLargest vs)) v) ↔ ¬ WidthTie vs := by
  obtain ⟨h1, h2, h3⟩ := firstLargest_spec vs
  generalize firstLargest vs = m at h1 h2 h3
  constructor
  · rintro h ⟨k, hk, hle, hmem, hfind⟩
    have hkm := h1 k hmem
    have hmk : (m.natAbs : Int) ≤ k := by
      rcases h2 with h2 | h2
      · subst h2; rcases hk with rfl | rfl <;> decide
      · exact hle m h2
    have habs : (m.natAbs : Int) = k := by rcases hk with rfl | rfl <;> omega
    have hm : m = -k := by
      have := h3 (by rintro rfl; rcases hk with rfl | rfl <;> simp at habs)
      have heq : (fun v : Int => decide (v.natAbs = m.natAbs))
          = fun v : Int => decide ((v.natAbs : Int) = k) := by
        funext v
        apply decide_eq_decide.2
        omega
      rw [heq, hfind] at this
      simpa using this.symm
    have := h k hmem
    rcases hk with rfl | rfl
    · subst hm
      revert this; decide
    · subst hm
      revert this; decide
  · intro hnt v hv
    have hle := h1 v hv
    have tie : ∀ k : Int, (k = 0x80 ∨ k = 0x8000) → m = -k → v ≠ k := by
      rintro k hk rfl rfl
      apply hnt
      refine ⟨v, hk, fun w hw => ?_, hv, ?_⟩
      · have := h1 w hw
        rcases hk with rfl | rfl <;> omega
      · have := h3 (by rcases hk with rfl | rfl <;> decide)
        have heq : (fun w : Int => decide (w.natAbs = (-v).natAbs))
            = fun w : Int => decide ((w.natAbs : Int) = v) := by
          funext w
          apply decide_eq_decide.2
          rcases hk with rfl | rfl <;> omega
        rwa [heq] at this
    unfold widthFor
    split
    · rename_i hf
      rw [fitsIn_one] at hf ⊢
      have := tie 0x80 (.inl rfl)
      omega
    split
    · rename_i hf
      rw [fitsIn_two] at hf ⊢
      have := tie 0x8000 (.inr rfl)
      omega
    · exact h32 v hv

theorem rowWidth_widthFor (r : FrameRowBuilder) : rowWidth r = widthFor (firstLargest (values r)) :=
  rfl

theorem values_fit4 (r : FrameRowBuilder) : ∀ v ∈ values r, FitsIn 4 v := by
  intro v hv
  rw [values_eq, List.mem_map] at hv
  obtain ⟨x, _, rfl⟩ := hv
  rw [fitsIn_four]
  have h1 := BitVec.le_toInt x
  have h2 := BitVec.toInt_lt (x := x)
  omega

theorem truncTo_iff (t : FreAddrSize) (x : I32) :
    truncTo t x = x.toInt ↔ FitsIn t.bytes x.toInt := by
  have h1 := BitVec.toInt_eq_toNat_cond x
  have hx := x.isLt
  cases t with
  | u8 =>
    simp only [truncTo, FreAddrSize.bytes, fitsIn_one]
    have h2 := BitVec.toInt_eq_toNat_cond (x.setWidth 8)
    rw [BitVec.toNat_setWidth] at h2
    split at h1 <;> split at h2 <;> omega
  | u16 =>
    simp only [truncTo, FreAddrSize.bytes, fitsIn_two]
    have h2 := BitVec.toInt_eq_toNat_cond (x.setWidth 16)
    rw [BitVec.toNat_setWidth] at h2
    split at h1 <;> split at h2 <;> omega
  | u32 =>
    simp only [truncTo, FreAddrSize.bytes, fitsIn_four]
    refine ⟨fun _ => ?_, fun _ => trivial⟩
    split at h1 <;> omega

/-- All offsets of the row survive exactly if there is no tie. -/
theorem truncTo_all (r : FrameRowBuilder) :
    (∀ x ∈ rowValues r, truncTo (rowOffsetType r) x = x.toInt) ↔ ¬ WidthTie (values r) := by
  rw [← widthFor_fits _ (values_fit4 r), ← rowWidth_widthFor, rowWidth_eq, values_eq]
  simp only [List.mem_map, forall_exists_index, and_imp, forall_apply_eq_imp_iff₂, truncTo_iff]

end Verif
