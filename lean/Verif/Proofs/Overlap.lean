import Verif.Proofs.Emit
import Verif.Proofs.Lookup
import Verif.Spec.Image
/-!
# The overlap check of `build`
-/

namespace Verif
open Spec SFrameBuilder

theorem overlaps_eq (dbg : Bool) (a b : FuncDescBuilder)
    (h : a.startAddress.toInt < b.startAddress.toInt) :
    overlaps dbg a b =
      if dbg = true ∧ 2147483647 < b.startAddress.toInt - a.startAddress.toInt then .panic .overflow
      else .ok (decide (b.startAddress.toInt < a.startAddress.toInt + a.size.toNat)) := by
  have ha := toInt_bounds a.startAddress
  have hb := toInt_bounds b.startAddress
  have hd : (b.startAddress - a.startAddress).toNat
      = (b.startAddress.toInt - a.startAddress.toInt).toNat := by
    have h1 := BitVec.toInt_eq_toNat_cond a.startAddress
    have h2 := BitVec.toInt_eq_toNat_cond b.startAddress
    have h3 := a.startAddress.isLt
    have h4 := b.startAddress.isLt
    rw [BitVec.toNat_sub]
    split at h1 <;> split at h2 <;> omega
  unfold overlaps subI32
  cases dbg with
  | false =>
    simp only [Bool.false_and, Bool.false_eq_true, if_false, false_and, Rust.bind_ok, hd]
    congr 1
    apply decide_eq_decide.2
    omega
  | true =>
    rw [if_neg (by simp; omega)]
    by_cases hf : 2147483647 < b.startAddress.toInt - a.startAddress.toInt
    · rw [if_pos (by simp; omega)]
      simp [hf, Rust.bind]
    · rw [if_neg (by simp; omega), if_neg (fun hh => hf hh.2)]
      simp only [Rust.bind_ok, hd]
      congr 1
      apply decide_eq_decide.2
      omega

theorem overlapping_cons {a b : FuncDescBuilder} {rest : List FuncDescBuilder}
    (h : FunctionsAscending (a :: b :: rest)) :
    Overlapping (a :: b :: rest) ↔
      b.startAddress.toInt < a.startAddress.toInt + a.size.toNat ∨ Overlapping (b :: rest) := by
  obtain ⟨h1, h2⟩ := List.pairwise_cons.1 h
  obtain ⟨h3, h4⟩ := List.pairwise_cons.1 h2
  constructor
  · rintro ⟨f, hf, g, hg, hlt, hin⟩
    rcases List.mem_cons.1 hf with rfl | hf'
    · left
      rcases List.mem_cons.1 hg with rfl | hg
      · omega
      · rcases List.mem_cons.1 hg with rfl | hg'
        · exact hin
        · have := h3 g hg'; omega
    · right
      refine ⟨f, hf', g, ?_, hlt, hin⟩
      rcases List.mem_cons.1 hg with rfl | hg
      · have := h1 f hf'; omega
      · exact hg
  · rintro (h | ⟨f, hf, g, hg, hh⟩)
    · exact ⟨a, by simp, b, by simp, h1 b (by simp), h⟩
    · exact ⟨f, List.mem_cons_of_mem _ hf, g, List.mem_cons_of_mem _ hg, hh⟩

theorem not_overlapping_single (a : FuncDescBuilder) : ¬ Overlapping [a] := by
  rintro ⟨f, hf, g, hg, hlt, _⟩
  simp only [List.mem_singleton] at hf hg
  subst hf hg
  omega

theorem anyPairs_spec (dbg : Bool) (fs : List FuncDescBuilder) (h : FunctionsAscending fs) :
    (∃ v, anyPairs (overlaps dbg) fs = .ok v ∧ (v = true ↔ Overlapping fs) ∧
      ¬ (dbg = true ∧ ∃ i, FarApart fs i ∧ ¬ Overlapping (fs.take (i + 1)))) ∨
    (anyPairs (overlaps dbg) fs = .panic .overflow ∧
      dbg = true ∧ ∃ i, FarApart fs i ∧ ¬ Overlapping (fs.take (i + 1))) := by
  induction fs with
  | nil =>
    refine .inl ⟨false, rfl, ⟨by simp, fun ⟨f, hf, _⟩ => by cases hf⟩, ?_⟩
    rintro ⟨_, i, ⟨f, g, hf, _⟩, _⟩
    simp at hf
  | cons a l ih =>
    cases l with
    | nil =>
      refine .inl ⟨false, rfl, ⟨by simp, fun hh => absurd hh (not_overlapping_single a)⟩, ?_⟩
      rintro ⟨_, i, ⟨f, g, _, hg, _⟩, _⟩
      simp at hg
    | cons b rest =>
      have hab := (List.pairwise_cons.1 h).1 b (by simp)
      have htail := (List.pairwise_cons.1 h).2
      rw [overlapping_cons h]
      simp only [anyPairs]
      rw [overlaps_eq dbg a b hab]
      by_cases hfar : dbg = true ∧ 2147483647 < b.startAddress.toInt - a.startAddress.toInt
      · rw [if_pos hfar]
        right
        refine ⟨rfl, hfar.1, 0, ⟨a, b, rfl, rfl, hfar.2⟩, ?_⟩
        simpa using not_overlapping_single a
      rw [if_neg hfar, Rust.bind_ok]
      by_cases hov : b.startAddress.toInt < a.startAddress.toInt + a.size.toNat
      · left
        refine ⟨true, by simp [hov], ⟨fun _ => .inl hov, fun _ => rfl⟩, ?_⟩
        rintro ⟨hd, i, hf, hno⟩
        cases i with
        | zero =>
          obtain ⟨f, g, h1, h2, h3⟩ := hf
          simp only [List.getElem?_cons_zero, Option.some.injEq, List.getElem?_cons_succ] at h1 h2
          subst h1 h2
          exact hfar ⟨hd, h3⟩
        | succ i =>
          exact hno ⟨a, by simp, b, by simp, hab, hov⟩
      simp only [hov, decide_false, Bool.false_eq_true, if_false, false_or]
      have hshift : (∃ i, FarApart (a :: b :: rest) i ∧ ¬ Overlapping ((a :: b :: rest).take (i + 1)))
          → dbg = true →
          ∃ i, FarApart (b :: rest) i ∧ ¬ Overlapping ((b :: rest).take (i + 1)) := by
        rintro ⟨i, hf, hno⟩ hd
        cases i with
        | zero =>
          obtain ⟨f, g, h1, h2, h3⟩ := hf
          simp only [List.getElem?_cons_zero, Option.some.injEq, List.getElem?_cons_succ] at h1 h2
          subst h1 h2
          exact absurd ⟨hd, h3⟩ hfar
        | succ i =>
          refine ⟨i, hf, fun hov' => hno ?_⟩
          obtain ⟨f, hf', g, hg', hh⟩ := hov'
          exact ⟨f, List.mem_cons_of_mem _ hf', g, List.mem_cons_of_mem _ hg', hh⟩
      rcases ih htail with ⟨v, h1, h2, h3⟩ | ⟨h1, hd, i, hf, hno⟩
      · exact .inl ⟨v, h1, h2, fun hh => h3 ⟨hh.1, hshift hh.2 hh.1⟩⟩
      · refine .inr ⟨h1, hd, i + 1, hf, fun hh => hno ?_⟩
        have hasc : FunctionsAscending ((a :: b :: rest).take (i + 1 + 1)) :=
          List.Pairwise.sublist (List.take_sublist _ _) h
        simp only [List.take_succ_cons] at hh hasc ⊢
        exact ((overlapping_cons hasc).1 hh).resolve_left hov

end Verif
