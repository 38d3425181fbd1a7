import Verif.Props.MergeAll
import Verif.Props.Merge2
/-!
# Merging functions makes sections smaller: C112
-/

namespace Verif
open Spec SFrameBuilder

theorem totalSize_cons (f : FuncDescBuilder) (l : List FuncDescBuilder) :
    totalSize (f :: l) = fresSize f + totalSize l := by simp [totalSize]

theorem totalRows_cons (f : FuncDescBuilder) (l : List FuncDescBuilder) :
    totalRows (f :: l) = (rows f).length + totalRows l := by simp [totalRows]

/-- Starts ascend and no function starts inside another one. -/
def Apart (l : List FuncDescBuilder) : Prop :=
  l.Pairwise fun (x y : FuncDescBuilder) => x.startAddress.toInt + (x.size.toNat : Int) ≤ y.startAddress.toInt ∧
    x.startAddress.toInt < y.startAddress.toInt

theorem apart_iff {l : List FuncDescBuilder}
    (h : l.Pairwise fun x y => x.startAddress.toInt < y.startAddress.toInt) :
    ¬ Overlapping l ↔ Apart l := by
  induction l with
  | nil => simp [Overlapping, Apart]
  | cons f l ih =>
    rw [List.pairwise_cons] at h
    have ih := ih h.2
    constructor
    · intro hn
      unfold Apart
      rw [List.pairwise_cons]
      refine ⟨fun y hy => ⟨?_, h.1 y hy⟩, ?_⟩
      · apply Classical.byContradiction
        intro hc
        exact hn ⟨f, by simp, y, by simp [hy], h.1 y hy, by omega⟩
      · exact ih.mp fun ⟨a, ha, b, hb, hab⟩ => hn ⟨a, by simp [ha], b, by simp [hb], hab⟩
    · intro ha
      unfold Apart at ha
      rw [List.pairwise_cons] at ha
      rintro ⟨x, hx, y, hy, h1, h2⟩
      rcases List.mem_cons.mp hx with rfl | hx
      · rcases List.mem_cons.mp hy with rfl | hy
        · omega
        · have := (ha.1 y hy).1
          omega
      · rcases List.mem_cons.mp hy with rfl | hy
        · have := h.1 x ‹x ∈ l›
          omega
        · exact ih.mpr ha.2 ⟨x, hx, y, hy, h1, h2⟩

theorem mergeFrom_starts {d : Bool} {f : FuncDescBuilder} {l out : List FuncDescBuilder}
    (h : mergeFrom d f l = some out) : ∀ x ∈ out, ∃ y ∈ f :: l, x.startAddress = y.startAddress := by
  induction l generalizing f out with
  | nil =>
    simp only [mergeFrom, Option.some.injEq] at h
    subst h
    intro x hx
    exact ⟨x, hx, rfl⟩
  | cons g l ih =>
    simp only [mergeFrom] at h
    split at h
    · cases h
    · split at h
      · intro x hx
        obtain ⟨y, hy, he⟩ := ih h x hx
        rcases List.mem_cons.mp hy with rfl | hy
        · exact ⟨f, by simp, he⟩
        · exact ⟨y, by simp [hy], he⟩
      · cases hm : mergeFrom d g l with
        | none => rw [hm] at h; cases h
        | some o =>
          rw [hm] at h
          simp only [Option.map_some, Option.some.injEq] at h
          subst h
          intro x hx
          rcases List.mem_cons.mp hx with rfl | hx
          · exact ⟨x, by simp, rfl⟩
          · obtain ⟨y, hy, he⟩ := ih hm x hx
            exact ⟨y, by simp [hy], he⟩

theorem fresSize_joined (f g : FuncDescBuilder) : fresSize (joined f g) = fresSize f := rfl

theorem rows_joined (f g : FuncDescBuilder) : rows (joined f g) = rows f := rfl

/-- What is left needs no more room, does not overlap, and is smaller unless nothing was merged. -/
theorem mergeFrom_smaller {d : Bool} {f : FuncDescBuilder} {l out : List FuncDescBuilder}
    (h : mergeFrom d f l = some out) (ha : Apart (f :: l)) :
    Apart out ∧ totalSize out ≤ totalSize (f :: l) ∧ totalRows out ≤ totalRows (f :: l) ∧
      out.length ≤ (f :: l).length ∧ (out.length = (f :: l).length → out = f :: l) := by
  induction l generalizing f out with
  | nil =>
    simp only [mergeFrom, Option.some.injEq] at h
    subst h
    exact ⟨ha, Nat.le_refl _, Nat.le_refl _, Nat.le_refl _, fun _ => rfl⟩
  | cons g l ih =>
    simp only [mergeFrom] at h
    split at h
    · cases h
    · split at h
      · rename_i hw
        have ha' : Apart (joined f g :: l) := by
          unfold Apart at ha ⊢
          rw [List.pairwise_cons, List.pairwise_cons] at ha
          rw [List.pairwise_cons]
          refine ⟨fun y hy => ?_, ha.2.2⟩
          have h1 := ha.1 g (by simp)
          have h2 := ha.2.1 y hy
          have h3 := ha.1 y (by simp [hy])
          have hs := hw.1.2.2.2.2
          simp only [joined, BitVec.toNat_ofNat]
          rw [Nat.mod_eq_of_lt hs]
          refine ⟨by omega, h3.2⟩
        obtain ⟨h1, h2, h3, h4, h5⟩ := ih h ha'
        rw [totalSize_cons, fresSize_joined] at h2
        rw [totalRows_cons, rows_joined] at h3
        rw [totalSize_cons, totalSize_cons, totalRows_cons, totalRows_cons]
        simp only [List.length_cons] at h4 ⊢
        refine ⟨h1, by omega, by omega, by omega, fun he => ?_⟩
        omega
      · cases hm : mergeFrom d g l with
        | none => rw [hm] at h; cases h
        | some o =>
          rw [hm] at h
          simp only [Option.map_some, Option.some.injEq] at h
          subst h
          have ha' := ha
          unfold Apart at ha'
          rw [List.pairwise_cons] at ha'
          obtain ⟨h1, h2, h3, h4, h5⟩ := ih hm ha'.2
          rw [totalSize_cons f o, totalSize_cons f (g :: l), totalRows_cons f o, totalRows_cons f (g :: l)]
          simp only [List.length_cons] at h4 h5 ⊢
          refine ⟨?_, by omega, by omega, by omega, fun he => ?_⟩
          · unfold Apart
            rw [List.pairwise_cons]
            refine ⟨fun x hx => ?_, h1⟩
            obtain ⟨y, hy, hs⟩ := mergeFrom_starts hm x hx
            rw [hs]
            exact ha'.1 y hy
          · rw [h5 (by omega)]

/-- **C112.**  If a section can be built, and `merge_adjacent_fdes` does not panic on it, then it can be
built afterwards, with the same profile and byte order, and is not larger; it is smaller exactly if
anything was merged. -/
theorem C112_merged_smaller (dbg d : Bool) (o : Endian) (b b' : SFrameBuilder)
    (hb : SFrameBuilder.Reachable d b) (hm : b.mergeAdjacentFdes d = .ok b') (out : List U8)
    (h : b.build dbg o = .ok (.ok out)) :
    ∃ out', b'.build dbg o = .ok (.ok out') ∧ out'.length ≤ out.length ∧
      (out'.length = out.length ↔ b' = b) := by
  have hasc := functions_ascending hb.inv
  rcases build_cases dbg o b hb.inv with ⟨h1, _⟩ | ⟨hfar, ⟨h1, _⟩ | ⟨h1, _⟩ | ⟨_, hno, hrep⟩⟩
  · rw [h] at h1; cases h1
  · rw [h] at h1; cases h1
  · rw [h] at h1; cases h1
  · rcases C40_exact_partial d d b hb with ⟨_, h2⟩ | ⟨fs, hall, h2⟩
    · rw [hm] at h2; cases h2
    · rw [hm] at h2
      injection h2 with h2
      subst h2
      have ha := (apart_iff hasc).mp hno
      have facts : Apart fs ∧ totalSize fs ≤ totalSize (functions b) ∧
          totalRows fs ≤ totalRows (functions b) ∧ fs.length ≤ (functions b).length ∧
          (fs.length = (functions b).length → fs = functions b) := by
        cases hf : functions b with
        | nil =>
          rw [hf] at hall
          simp only [mergeAll, Option.some.injEq] at hall
          subst hall
          exact ⟨List.Pairwise.nil, Nat.le_refl _, Nat.le_refl _, Nat.le_refl _, fun _ => rfl⟩
        | cons f l =>
          rw [hf] at hall ha
          exact mergeFrom_smaller hall ha
      obtain ⟨h1, h3, h4, h5, h6⟩ := facts
      have hfs := functions_withFunctions b fs
      have hb' := SFrameBuilder.Reachable.mergeAdjacentFdes hb hm
      have hrep' : Representable (functions (withFunctions b fs)) := by
        rw [hfs]
        unfold Representable at *
        omega
      have hno' : ¬ Overlapping (functions (withFunctions b fs)) :=
        (apart_iff (functions_ascending hb'.inv)).mpr (by rw [hfs]; exact h1)
      have hsame : (withFunctions b fs = b) ↔ fs = functions b := by
        constructor
        · intro he
          rw [← he, hfs]
        · intro he
          rw [he, withFunctions_self hb.inv]
      have hfar' : ¬ (dbg = true ∧ ∃ i, FarApart (functions (withFunctions b fs)) i ∧
          ¬ Overlapping ((functions (withFunctions b fs)).take (i + 1))) := by
        rintro ⟨hd, i, hi, hi'⟩
        have hnear : ∀ (i : Nat) f g, (functions b)[i]? = some f → (functions b)[i + 1]? = some g →
            distance f g < 2147483648 := by
          intro i f g hf hg
          apply Classical.byContradiction
          intro hc
          refine hfar ⟨hd, i, ⟨f, g, hf, hg, by unfold distance at hc; omega⟩, ?_⟩
          rintro ⟨x, hx, y, hy, hxy⟩
          exact hno ⟨x, List.mem_of_mem_take hx, y, List.mem_of_mem_take hy, hxy⟩
        obtain ⟨b'', hm', he, _⟩ := C40_disjoint_partial d d b hb hno hnear
        rw [hm] at hm'
        injection hm' with hm'
        rw [hm', he] at hi hi'
        exact hfar ⟨hd, i, hi, hi'⟩
      rcases build_cases dbg o (withFunctions b fs) hb'.inv with
        ⟨_, h7⟩ | ⟨_, ⟨_, h7⟩ | ⟨_, _, h7⟩ | ⟨h7, _, _⟩⟩
      · exact absurd h7 hfar'
      · exact absurd h7 hno'
      · exact absurd hrep' h7
      · refine ⟨_, h7, ?_⟩
        rw [(C28_layout dbg d o _ hb' _ h7).2.1, (C28_layout dbg d o b hb _ h).2.1, hfs, hsame]
        refine ⟨by omega, fun he => h6 (by omega), fun he => by rw [he]⟩

/-- Two functions of one byte each, at the ends of the address space, become one: 68 bytes become 48. -/
example : SFrameBuilder.Reachable false Samples.ends ∧
    ((Samples.ends.mergeAdjacentFdes false).bind fun b' => (b'.build false .little).bind fun
      | .ok out => .ok (some out.length)
      | .error _ => .ok none) = .ok (some 48) ∧
    ((Samples.ends.build false .little).bind fun
      | .ok out => .ok (some out.length)
      | .error _ => .ok none) = .ok (some 68) :=
  ⟨Samples.ends_reachable false, by decide +kernel, by decide +kernel⟩

end Verif
