import Verif.Base.BMap
/-!
# Facts about sorted association lists
-/

namespace Verif

theorem ordI32_inj {a b : BitVec 32} : ordI32 a = ordI32 b ↔ a = b := BitVec.toInt_inj

theorem ordU32_inj {a b : BitVec 32} : ordU32 a = ordU32 b ↔ a = b := by
  simp only [ordU32, Int.natCast_inj, BitVec.toNat_inj]

namespace BMap

variable {K V : Type} {ord : K → Int}

/-- Distinct keys have distinct ranks. -/
def Inj (ord : K → Int) : Prop := ∀ {a b : K}, ord a = ord b → a = b

theorem mem_insert {k : K} {v : V} {m : BMap K V} {e : K × V} (h : e ∈ m.insert ord k v) :
    e = (k, v) ∨ e ∈ m := by
  induction m with
  | nil => simp [insert] at h; exact .inl h
  | cons x m ih =>
    obtain ⟨k', v'⟩ := x
    unfold insert at h
    split at h
    · simp at h ⊢; rcases h with h | h | h <;> simp [h]
    · split at h
      · simp at h ⊢; rcases h with h | h <;> simp [h]
      · simp only [List.mem_cons] at h ⊢
        rcases h with h | h
        · simp [h]
        · rcases ih h with h | h <;> simp [h]

theorem insert_sorted {k : K} {v : V} {m : BMap K V} (h : m.Sorted ord) :
    (m.insert ord k v).Sorted ord := by
  induction m with
  | nil => simp [insert, Sorted]
  | cons x m ih =>
    obtain ⟨k', v'⟩ := x
    unfold insert
    simp only [Sorted, List.pairwise_cons] at h ih ⊢
    split
    · rename_i hlt
      simp only [List.pairwise_cons]
      refine ⟨?_, h⟩
      intro e he
      rcases List.mem_cons.1 he with rfl | he
      · exact hlt
      · have := h.1 e he; omega
    · split
      · rename_i hge heq
        simp only [List.pairwise_cons]
        refine ⟨?_, h.2⟩
        intro e he
        have := h.1 e he; omega
      · rename_i hge hne
        simp only [List.pairwise_cons]
        refine ⟨?_, ih h.2⟩
        intro e he
        rcases mem_insert he with rfl | he
        · simp only; omega
        · exact h.1 e he

theorem get_insert {k k' : K} {v : V} {m : BMap K V} (h : m.Sorted ord) :
    (m.insert ord k v).get ord k' = if ord k' = ord k then some v else m.get ord k' := by
  induction m with
  | nil => simp [insert, get]
  | cons x m ih =>
    obtain ⟨k₁, v₁⟩ := x
    have h2 : Sorted ord m := (List.pairwise_cons.1 h).2
    have ih := ih h2
    unfold insert
    split
    · simp [get]
    · split
      · rename_i heq
        simp only [get, heq]
        split <;> rfl
      · rename_i hne
        simp only [get, ih]
        by_cases h1 : ord k' = ord k₁
        · rw [if_pos h1, if_pos h1, if_neg (by omega)]
        · rw [if_neg h1, if_neg h1]

theorem get_eq_some_iff (hinj : Inj ord) {k : K} {v : V} {m : BMap K V} (h : m.Sorted ord) :
    m.get ord k = some v ↔ (k, v) ∈ m := by
  induction m with
  | nil => simp [get]
  | cons x m ih =>
    obtain ⟨k₁, v₁⟩ := x
    obtain ⟨h1, h2⟩ := List.pairwise_cons.1 h
    simp only [get, List.mem_cons, Prod.mk.injEq]
    split
    · rename_i heq
      have hk := hinj heq
      subst hk
      constructor
      · intro h; simp at h; simp [h]
      · rintro (⟨_, rfl⟩ | hm)
        · rfl
        · have := h1 _ hm; simp only at this; omega
    · rename_i hne
      rw [ih h2]
      constructor
      · exact .inr
      · rintro (⟨rfl, _⟩ | hm)
        · exact absurd rfl hne
        · exact hm

theorem get_eq_none_iff {k : K} {m : BMap K V} :
    m.get ord k = none ↔ ∀ e ∈ m, ord e.1 ≠ ord k := by
  induction m with
  | nil => simp [get]
  | cons x m ih =>
    obtain ⟨k₁, v₁⟩ := x
    simp only [get, List.mem_cons, forall_eq_or_imp]
    split
    · rename_i h; simp [h]
    · rename_i h
      rw [ih]
      constructor
      · exact fun hh => ⟨fun h' => h h'.symm, hh⟩
      · exact fun hh => hh.2

/-- Sorted maps with the same lookups are equal. -/
theorem ext (hinj : Inj ord) {m m' : BMap K V} (h : m.Sorted ord) (h' : m'.Sorted ord)
    (hg : ∀ k, m.get ord k = m'.get ord k) : m = m' := by
  induction m generalizing m' with
  | nil =>
    cases m' with
    | nil => rfl
    | cons x m' => have := hg x.1; simp [get] at this
  | cons x m ih =>
    obtain ⟨k, v⟩ := x
    cases m' with
    | nil => have := hg k; simp [get] at this
    | cons x' m' =>
      obtain ⟨k', v'⟩ := x'
      obtain ⟨h1, h2⟩ := List.pairwise_cons.1 h
      obtain ⟨h1', h2'⟩ := List.pairwise_cons.1 h'
      have e1 : (k, v) ∈ (k', v') :: m' := by
        rw [← get_eq_some_iff hinj h', ← hg]; simp [get]
      have e2 : (k', v') ∈ (k, v) :: m := by
        rw [← get_eq_some_iff hinj h, hg]; simp [get]
      have hkv : (k, v) = (k', v') := by
        rcases List.mem_cons.1 e1 with e1 | e1
        · exact e1
        · rcases List.mem_cons.1 e2 with e2 | e2
          · exact e2.symm
          · have := h1 _ e2; have := h1' _ e1; simp only at *; omega
      obtain ⟨rfl, rfl⟩ := Prod.mk.injEq .. ▸ hkv
      congr 1
      apply ih h2 h2'
      intro j
      have := hg j
      simp only [get] at this
      by_cases hj : ord j = ord k
      · rw [get_eq_none_iff.2, get_eq_none_iff.2]
        · intro e he; have := h1' e he; simp only at this; omega
        · intro e he; have := h1 e he; simp only at this; omega
      · simpa [hj] using this

theorem insert_comm (hinj : Inj ord) {k k' : K} {v v' : V} {m : BMap K V} (h : m.Sorted ord)
    (hne : ord k ≠ ord k') :
    (m.insert ord k v).insert ord k' v' = (m.insert ord k' v').insert ord k v := by
  apply ext hinj (insert_sorted (insert_sorted h)) (insert_sorted (insert_sorted h))
  intro j
  simp only [get_insert (insert_sorted h), get_insert h]
  by_cases h1 : ord j = ord k'
  · rw [if_pos h1, if_neg (by omega), if_pos h1]
  · rw [if_neg h1, if_neg h1]

theorem remove_sorted {k : K} {m : BMap K V} (h : m.Sorted ord) : (m.remove ord k).Sorted ord :=
  List.Pairwise.filter _ h

theorem mem_remove {k : K} {m : BMap K V} {e : K × V} :
    e ∈ m.remove ord k ↔ e ∈ m ∧ ord e.1 ≠ ord k := by
  simp [remove]

theorem rangeFrom_sorted {k : K} {m : BMap K V} (h : m.Sorted ord) :
    (m.rangeFrom ord k).Sorted ord := List.Pairwise.filter _ h

theorem setAt_sorted {k : K} {v : V} {m : BMap K V} (h : m.Sorted ord) :
    (m.setAt ord k v).Sorted ord := by
  unfold setAt Sorted
  rw [List.pairwise_map]
  refine List.Pairwise.imp ?_ h
  intro a b hab
  split <;> split <;> exact hab

/-- A key of a sorted map splits it. -/
theorem split_at {m : BMap K V} (h : m.Sorted ord) {k : K} {v : V}
    {l r : BMap K V} (hm : m = l ++ (k, v) :: r) :
    (∀ e ∈ l, ord e.1 < ord k) ∧ (∀ e ∈ r, ord k < ord e.1) := by
  subst hm
  rw [Sorted, List.pairwise_append] at h
  obtain ⟨_, h2, h3⟩ := h
  exact ⟨fun e he => h3 e he (k, v) (by simp), fun e he => (List.pairwise_cons.1 h2).1 e he⟩

theorem rangeFrom_split {m : BMap K V} (h : m.Sorted ord) {k : K} {v : V}
    {l r : BMap K V} (hm : m = l ++ (k, v) :: r) :
    m.rangeFrom ord k = (k, v) :: r := by
  obtain ⟨h1, h2⟩ := split_at h hm
  subst hm
  unfold rangeFrom
  rw [List.filter_append, List.filter_eq_nil_iff.2, List.nil_append, List.filter_cons_of_pos (by simp),
    List.filter_eq_self.2]
  · intro e he; have := h2 e he; simp; omega
  · intro e he; have := h1 e he; simp; omega

theorem remove_split {m : BMap K V} (h : m.Sorted ord) {k : K} {v : V}
    {l r : BMap K V} (hm : m = l ++ (k, v) :: r) :
    m.remove ord k = l ++ r := by
  obtain ⟨h1, h2⟩ := split_at h hm
  subst hm
  unfold remove
  rw [List.filter_append, List.filter_cons_of_neg (by simp), List.filter_eq_self.2,
    List.filter_eq_self.2]
  · intro e he; have := h2 e he; simp; omega
  · intro e he; have := h1 e he; simp; omega

theorem setAt_split {m : BMap K V} (h : m.Sorted ord) {k : K} {v v' : V}
    {l r : BMap K V} (hm : m = l ++ (k, v) :: r) :
    m.setAt ord k v' = l ++ (k, v') :: r := by
  obtain ⟨h1, h2⟩ := split_at h hm
  subst hm
  unfold setAt
  rw [List.map_append, List.map_cons]
  simp only [if_true]
  congr 1
  · conv => rhs; rw [← List.map_id l]
    apply List.map_congr_left
    intro e he; have := h1 e he; rw [if_neg (by omega)]; rfl
  · congr 1
    conv => rhs; rw [← List.map_id r]
    apply List.map_congr_left
    intro e he; have := h2 e he; rw [if_neg (by omega)]; rfl

end BMap

theorem injI32 : BMap.Inj ordI32 := fun h => ordI32_inj.1 h
theorem injU32 : BMap.Inj ordU32 := fun h => ordU32_inj.1 h

end Verif
