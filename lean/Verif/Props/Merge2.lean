import Verif.Props.Convert3
/-!
# Merging rows makes sections smaller: C66
-/

namespace Verif
open Spec SFrameBuilder

theorem foldl_max_le {l l' : List Nat} (h : l.Sublist l') (a : Nat) :
    l.foldl max a ≤ l'.foldl max a := by
  have mono : ∀ (l : List Nat) (a b : Nat), a ≤ b → l.foldl max a ≤ l.foldl max b := by
    intro l
    induction l with
    | nil => intro a b h; exact h
    | cons x l ih => intro a b h; exact ih _ _ (by omega)
  induction h generalizing a with
  | slnil => exact Nat.le_refl _
  | cons x h ih => exact Nat.le_trans (ih a) (mono _ _ _ (Nat.le_max_left a x))
  | cons_cons x h ih => exact ih (max a x)

theorem sum_sublist_le {l l' : List Nat} (h : l.Sublist l') : l.sum ≤ l'.sum := by
  induction h with
  | slnil => exact Nat.le_refl _
  | cons x h ih => simp only [List.sum_cons]; omega
  | cons_cons x h ih => simp only [List.sum_cons]; omega

theorem sum_map_le {α : Type} {f g : α → Nat} {l : List α} (h : ∀ x ∈ l, f x ≤ g x) :
    (l.map f).sum ≤ (l.map g).sum := by
  induction l with
  | nil => exact Nat.le_refl _
  | cons x l ih =>
    simp only [List.map_cons, List.sum_cons]
    have := h x (List.mem_cons_self ..)
    have := ih fun y hy => h y (List.mem_cons_of_mem _ hy)
    omega

/-- Fewer rows need no wider starts. -/
theorem startWidth_sublist {f g : FuncDescBuilder} (h : (rows g).Sublist (rows f)) :
    startWidth g ≤ startWidth f := by
  unfold startWidth
  have := foldl_max_le (h.map fun r => r.startAddress.toNat) 0
  simp only
  repeat' split
  all_goals omega

/-- Fewer rows need no more bytes. -/
theorem fresSize_sublist {f g : FuncDescBuilder} (h : (rows g).Sublist (rows f)) :
    fresSize g ≤ fresSize f := by
  have h1 : fresSize g ≤ ((rows g).map (rowSize f)).sum := by
    refine sum_map_le fun r _ => ?_
    have := startWidth_sublist h
    unfold rowSize
    omega
  exact Nat.le_trans h1 (sum_sublist_le (h.map _))

/-- `g` is `f` without some of its rows. -/
structure Spec.Thinned (f g : FuncDescBuilder) : Prop where
  start : g.startAddress = f.startAddress
  size : g.size = f.size
  rows : (rows g).Sublist (rows f)

/-- The builder does not depend on more than the starts, sizes and rows for whether it builds; with
fewer rows it still builds, and to fewer bytes. -/
theorem build_thinned (dbg d d' : Bool) (o o' : Endian) (b b' : SFrameBuilder)
    (hb : SFrameBuilder.Reachable d b) (hb' : SFrameBuilder.Reachable d' b')
    (g : FuncDescBuilder → FuncDescBuilder) (hf : functions b' = (functions b).map g)
    (hg : ∀ f ∈ functions b, Thinned f (g f)) (out : List U8)
    (h : b.build dbg o = .ok (.ok out)) :
    ∃ out', b'.build dbg o' = .ok (.ok out') ∧ out'.length ≤ out.length := by
  have hov : Overlapping (functions b') → Overlapping (functions b) := by
    rintro ⟨x, hx, y, hy, h1, h2⟩
    rw [hf, List.mem_map] at hx hy
    obtain ⟨x, hx, rfl⟩ := hx
    obtain ⟨y, hy, rfl⟩ := hy
    rw [(hg x hx).start, (hg y hy).start] at h1
    rw [(hg x hx).start, (hg y hy).start, (hg x hx).size] at h2
    exact ⟨x, hx, y, hy, h1, h2⟩
  have hov' : ∀ i, ¬ Overlapping ((functions b').take i) → ¬ Overlapping ((functions b).take i) := by
    rintro i hn ⟨x, hx, y, hy, h1, h2⟩
    apply hn
    have mx := List.mem_of_mem_take hx
    have my := List.mem_of_mem_take hy
    rw [hf, ← List.map_take]
    refine ⟨g x, List.mem_map.2 ⟨x, hx, rfl⟩, g y, List.mem_map.2 ⟨y, hy, rfl⟩, ?_, ?_⟩
    · rw [(hg x mx).start, (hg y my).start]; exact h1
    · rw [(hg x mx).start, (hg y my).start, (hg x mx).size]; exact h2
  have hfar : ∀ i, FarApart (functions b') i → FarApart (functions b) i := by
    rintro i ⟨x, y, hx, hy, h1⟩
    rw [hf, List.getElem?_map, Option.map_eq_some_iff] at hx hy
    obtain ⟨x, hx, rfl⟩ := hx
    obtain ⟨y, hy, rfl⟩ := hy
    rw [(hg x (List.mem_of_getElem? hx)).start, (hg y (List.mem_of_getElem? hy)).start] at h1
    exact ⟨x, y, hx, hy, h1⟩
  have hsize : totalSize (functions b') ≤ totalSize (functions b) := by
    unfold totalSize
    rw [hf, List.map_map]
    exact sum_map_le fun f hf => fresSize_sublist (hg f hf).rows
  have hrows : totalRows (functions b') ≤ totalRows (functions b) := by
    unfold totalRows
    rw [hf, List.map_map]
    exact sum_map_le fun f hf => (hg f hf).rows.length_le
  have hlen : (functions b').length = (functions b).length := by rw [hf, List.length_map]
  rcases build_cases dbg o b hb.inv with ⟨h1, _⟩ | ⟨hd, ⟨h1, _⟩ | ⟨h1, _⟩ | ⟨_, hno, hrep⟩⟩
  · rw [h] at h1; cases h1
  · rw [h] at h1; cases h1
  · rw [h] at h1; cases h1
  · have hrep' : Representable (functions b') := by
      unfold Representable at *
      omega
    rcases build_cases dbg o' b' hb'.inv with ⟨_, hd', i, hi, hi'⟩ | ⟨_, ⟨_, h1⟩ | ⟨_, _, h1⟩ | ⟨h1, _, _⟩⟩
    · exact absurd ⟨hd', i, hfar i hi, hov' _ hi'⟩ hd
    · exact absurd (hov h1) hno
    · exact absurd hrep' h1
    · refine ⟨_, h1, ?_⟩
      rw [(C28_layout dbg d' o' b' hb' _ h1).2.1, (C28_layout dbg d o b hb _ h).2.1, hlen]
      omega

/-- **C66.**  If a section can be built, then it can be built after `merge_adjacent_fres` was called on
its functions, and is not larger; so with `merge_fres` the converter's output can be built whenever it
can be built without, and is not larger. -/
theorem C66_merged_smaller (dbg : Bool) (o : Endian) (out : List U8) :
    (∀ (d d' : Bool) (b b' : SFrameBuilder), SFrameBuilder.Reachable d b → SFrameBuilder.Reachable d' b' →
      (functions b).map FuncDescBuilder.mergeAdjacentFres = (functions b').map Rust.ok →
      b.build dbg o = .ok (.ok out) →
      ∃ out', b'.build dbg o = .ok (.ok out') ∧ out'.length ≤ out.length) ∧
    (∀ (d : Bool) (eh : EhFrame) (opts : Options) (b : SFrameBuilder),
      dwarf2sframe d eh { opts with mergeFres := false } = .ok (.ok b) →
      b.build dbg o = .ok (.ok out) →
      ∃ b' out', dwarf2sframe d eh { opts with mergeFres := true } = .ok (.ok b') ∧
        b'.build dbg o = .ok (.ok out') ∧ out'.length ≤ out.length) := by
  have key : ∀ (d d' : Bool) (b b' : SFrameBuilder), SFrameBuilder.Reachable d b → SFrameBuilder.Reachable d' b' →
      (functions b).map FuncDescBuilder.mergeAdjacentFres = (functions b').map Rust.ok →
      b.build dbg o = .ok (.ok out) →
      ∃ out', b'.build dbg o = .ok (.ok out') ∧ out'.length ≤ out.length := by
    intro d d' b b' hb hb' hf h
    refine build_thinned dbg d d' o o b b' hb hb' (fun f => { f with fres := mergeKeep f.fres }) ?_ ?_ out h
    · have : (functions b).map FuncDescBuilder.mergeAdjacentFres
          = ((functions b).map fun f => { f with fres := mergeKeep f.fres }).map Rust.ok := by
        rw [List.map_map]
        exact List.map_congr_left fun f hf => mergeAdjacentFres_eq (hb.inv.function hf).1
      rw [this] at hf
      exact ((List.map_inj_right fun _ _ h => Rust.ok.inj h).1 hf).symm
    · intro f _
      exact ⟨rfl, rfl, (mergeKeep_sublist f.fres).map _⟩
  refine ⟨key, ?_⟩
  intro d eh opts b h hbuild
  obtain ⟨fs, h1, b', h2, _, h3⟩ := (C58_merge_options d false false eh opts).2.2.2 b h
  subst h3
  obtain ⟨out', h4, h5⟩ := key false false b b' (converted_reachable h) (converted_reachable h2) h1 hbuild
  exact ⟨b', out', h2, h4, h5⟩

/-- A function with two rows of the same rules: 54 bytes become 51. -/
example (dbg : Bool) : let fde : DwFde := { initial := 0x1000, len := 0x10, instructions := [], rows := .ok [.ok { Samples.dwRow1 with start := 0x1000, end_ := 0x1004 }, .ok { Samples.dwRow1 with start := 0x1004, end_ := 0x1010 }] }
    let size (m : Bool) := (dwarf2sframe dbg (Samples.ehOf [fde]) { Samples.convOpts with mergeFres := m }).bind fun r =>
      match r with
      | .error _ => .ok none
      | .ok b => (b.build dbg .little).bind fun out => .ok (out.toOption.map List.length)
    size false = .ok (some 54) ∧ size true = .ok (some 51) := by
  cases dbg <;> decide +kernel

end Verif
