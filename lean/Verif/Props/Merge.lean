import Verif.Props.Write
import Verif.Spec.Merge
/-!
# `merge_adjacent_fdes`: C40, C41

The code subtracts the wrong way round (`current.start - next.start`), so it merges two functions
only if the distance of their starts plus the size of the first is exactly `2 ^ 32`.
-/

namespace Verif
open Spec SFrameBuilder

theorem key_functions {b : SFrameBuilder} (h : BuilderInv b) (i : Nat) (e : I32 × FuncDescBuilder)
    (he : b.fdes[i]? = some e) : (functions b)[i]? = some e.2 ∧ e.1 = e.2.startAddress :=
  ⟨by simp [functions, he], h.key e (List.mem_of_getElem? he)⟩

namespace Samples

/-- A function that repeats every three bytes, with rows at 0 and 2. -/
def three (start : I32) (size : U32) : FuncDescBuilder :=
  { options := opts, startAddress := start, size := size, repSize := some 3, pauthKey := .A,
    fres := [(0, row8), (2, { row16' with startAddress := 2 })] }

theorem three_low_reachable : (three 0x80000000 0x80000000).Reachable :=
  .call (b := { three 0x80000000 0x80000000 with fres := [(0, row8)] })
    (.row { row16 with startAddress := 2 }) (.call (.row row8)
    (.call (.pcmask 3) (.new opts 0x80000000 0x80000000) rfl)
    (by decide +kernel)) (by decide +kernel)

theorem three_high_reachable : (three 0 8).Reachable :=
  .call (b := { three 0 8 with fres := [(0, row8)] })
    (.row { row16 with startAddress := 2 }) (.call (.row row8)
    (.call (.pcmask 3) (.new opts 0 8) rfl)
    (by decide +kernel)) (by decide +kernel)

/-- Two such functions, the second one right after the first. -/
def threes : SFrameBuilder :=
  { options := opts, fdes := [(0x80000000, three 0x80000000 0x80000000), (0, three 0 8)] }

theorem threes_reachable (dbg : Bool) : SFrameBuilder.Reachable dbg threes :=
  .fde (.fde (.new opts) three_low_reachable rfl) three_high_reachable (by decide +kernel)

/-- Two functions of one byte at the two ends of the address space. -/
def ends : SFrameBuilder := pair 0x80000000 1 0x7FFFFFFF 1

theorem ends_reachable (dbg : Bool) : SFrameBuilder.Reachable dbg ends :=
  pair_reachable dbg (by decide)

end Samples

/-! ### C40 -/

/-- `merge_adjacent_fdes` always ends.  In a release build it never panics; in a debug build it can
only panic if two functions start more than `2 ^ 31` apart. -/
theorem C40_terminates (dbg dbg' : Bool) (b : SFrameBuilder)
    (hb : SFrameBuilder.Reachable dbg' b) :
    (b.mergeAdjacentFdes dbg).Returns ∨
    (dbg = true ∧ b.mergeAdjacentFdes dbg = .panic .overflow ∧
      ∃ f ∈ functions b, ∃ g ∈ functions b, 2147483648 < distance f g) := by
  rcases mergeAdjacentFdes_spec (dbg := dbg) hb.inv with ⟨out, h, _⟩ | ⟨h1, h2, x, hx, y, hy, h⟩
  · exact .inl ⟨_, h⟩
  · refine .inr ⟨h1, h2, ?_⟩
    obtain ⟨e, he, rfl⟩ := List.mem_map.1 hx
    obtain ⟨e', he', rfl⟩ := List.mem_map.1 hy
    refine ⟨e.2, List.mem_map.2 ⟨e, he, rfl⟩, e'.2, List.mem_map.2 ⟨e', he', rfl⟩, ?_⟩
    unfold distance
    rw [← hb.inv.key e he, ← hb.inv.key e' he']
    exact h

/-- Both outcomes occur. -/
example : (Samples.ends.mergeAdjacentFdes true) = .panic .overflow ∧
    (Samples.threes.mergeAdjacentFdes true).Returns :=
  ⟨by decide +kernel, _, rfl⟩

/-- **C40, negation.**  A release build can lose a function: two functions at the two ends of the
address space are merged, and nothing is known about the second one any more. -/
theorem C40_release_loses_function :
    ∃ b b' : SFrameBuilder, SFrameBuilder.Reachable false b ∧ ¬ Overlapping (functions b) ∧
      b.mergeAdjacentFdes false = .ok b' ∧
      ∃ a, unwind (functions b) a = some (.A, none) ∧ unwind (functions b') a = none := by
  refine ⟨Samples.ends, { options := Samples.opts, fdes := [(0x80000000,
      { Samples.bare 0x80000000 2 with repSize := some 1 })] },
    Samples.ends_reachable false, ?_, by decide +kernel, 2147483647, by decide +kernel,
    by decide +kernel⟩
  rintro ⟨f, hf, g, hg, h1, h2⟩
  have hmem : functions Samples.ends = [Samples.bare 0x80000000 1, Samples.bare 0x7FFFFFFF 1] := rfl
  rw [hmem] at hf hg
  simp only [List.mem_cons, List.not_mem_nil, or_false] at hf hg
  rcases hf with rfl | rfl <;> rcases hg with rfl | rfl <;> revert h1 h2 <;> decide +kernel

/-- **C40, negation.**  Functions that repeat every three bytes are merged although the second one
does not start at a multiple of three: the row in force at its first byte changes.  In both
profiles. -/
theorem C40_changes_row (dbg : Bool) :
    ∃ b b' : SFrameBuilder, SFrameBuilder.Reachable dbg b ∧
      b.mergeAdjacentFdes dbg = .ok b' ∧
      ∃ a, unwind (functions b) a = some (.A, some Samples.row8) ∧
        unwind (functions b') a = some (.A, some { Samples.row16' with startAddress := 2 }) := by
  refine ⟨Samples.threes, { options := Samples.opts, fdes := [(0x80000000,
      Samples.three 0x80000000 0x80000008)] }, Samples.threes_reachable dbg, ?_, 0, ?_, ?_⟩
  · cases dbg <;> decide +kernel
  · decide +kernel
  · decide +kernel

/-- **C40, partial.**  Missing: two neighbours whose distance plus the size of the first is exactly
`2 ^ 32` (and, in a debug build, neighbours more than `2 ^ 31` apart); there the claim fails as shown
above.  In all other cases `merge_adjacent_fdes` returns and the result unwinds every address as
before (the builder is even unchanged). -/
theorem C40_merge_preserves_partial (dbg dbg' : Bool) (b : SFrameBuilder)
    (hb : SFrameBuilder.Reachable dbg' b)
    (hn : ∀ (i : Nat) f g, (functions b)[i]? = some f → (functions b)[i + 1]? = some g →
      (dbg = true → distance f g ≤ 2147483648) ∧ distance f g + f.size.toNat ≠ 4294967296) :
    ∃ b', b.mergeAdjacentFdes dbg = .ok b' ∧ b' = b ∧
      ∀ a, unwind (functions b') a = unwind (functions b) a := by
  refine ⟨b, mergeAdjacentFdes_id hb.inv fun i e e' he he' => ?_, rfl, fun _ => rfl⟩
  obtain ⟨h1, h2⟩ := key_functions hb.inv i e he
  obtain ⟨h3, h4⟩ := key_functions hb.inv _ e' he'
  have := hn i e.2 e'.2 h1 h3
  unfold distance at this
  rw [← h2, ← h4] at this
  exact this

/-- **C40, partial.**  The usual case: functions that do not overlap, with neighbours less than
`2 ^ 31` apart. -/
theorem C40_disjoint_partial (dbg dbg' : Bool) (b : SFrameBuilder)
    (hb : SFrameBuilder.Reachable dbg' b)
    (hno : ¬ Overlapping (functions b))
    (hn : ∀ (i : Nat) f g, (functions b)[i]? = some f → (functions b)[i + 1]? = some g →
      distance f g < 2147483648) :
    ∃ b', b.mergeAdjacentFdes dbg = .ok b' ∧ b' = b ∧
      ∀ a, unwind (functions b') a = unwind (functions b) a := by
  refine C40_merge_preserves_partial dbg dbg' b hb fun i f g hf hg => ?_
  have h1 := hn i f g hf hg
  refine ⟨fun _ => by omega, ?_⟩
  have hlt : f.startAddress.toInt < g.startAddress.toInt := by
    have hs := functions_ascending hb.inv
    obtain ⟨hi, rfl⟩ := List.getElem?_eq_some_iff.1 hf
    obtain ⟨hi', rfl⟩ := List.getElem?_eq_some_iff.1 hg
    exact List.pairwise_iff_getElem.1 hs i (i + 1) hi hi' (by omega)
  have h2 : ¬ StartsInside g f := fun h =>
    hno ⟨f, List.mem_of_getElem? hf, g, List.mem_of_getElem? hg, h⟩
  unfold StartsInside at h2
  unfold distance at h1 ⊢
  omega

/-- A section with two ordinary functions is left alone. -/
example : ∃ b', Samples.sec.mergeAdjacentFdes true = .ok b' ∧ b' = Samples.sec ∧
    ∀ a, unwind (functions b') a = unwind (functions Samples.sec) a :=
  C40_merge_preserves_partial true true _ (Samples.sec_reachable true) fun i f g hf hg => by
    match i, hf, hg with
    | 0, hf, hg => cases hf; cases hg; decide +kernel
    | 1, _, hg => cases hg
    | i + 2, _, hg => cases hg

/-! ### C41 -/

/-- The condition of line 132, as integers. -/
theorem relative_iff {k k2 : I32} (hlt : k.toInt < k2.toInt) (size : U32) :
    k - k2 = size ↔ k2.toInt - k.toInt + size.toNat = 4294967296 := by
  have h2 := BitVec.toInt_eq_toNat_cond k
  have h3 := BitVec.toInt_eq_toNat_cond k2
  have h4 := k.isLt
  have h5 := k2.isLt
  have h6 := size.isLt
  rw [← BitVec.toNat_inj, BitVec.toNat_sub]
  split at h2 <;> split at h3 <;> omega

theorem repMismatch_iff (f g : FuncDescBuilder) :
    repMismatch f g = false ↔ period f = period g ∧ period f ≤ 255 := by
  unfold repMismatch period
  have hf : ∀ a : U8, a.toNat ≤ 255 := fun a => by have := a.isLt; omega
  have hset : ∀ a : U8, ∀ n : U32, a.setWidth 32 = n ↔ a.toNat = n.toNat := fun a n => by
    rw [← BitVec.toNat_inj, BitVec.toNat_setWidth, Nat.mod_eq_of_lt (by have := a.isLt; omega)]
  cases f.repSize with
  | none =>
    cases g.repSize with
    | none =>
      simp only [Bool.or_eq_false_iff, decide_eq_false_iff_not, ne_eq, Decidable.not_not,
        ← BitVec.toNat_inj]
      omega
    | some y =>
      simp only [decide_eq_false_iff_not, ne_eq, Decidable.not_not, hset]
      have := hf y
      omega
  | some x =>
    cases g.repSize with
    | none =>
      simp only [decide_eq_false_iff_not, ne_eq, Decidable.not_not, hset]
      have := hf x
      omega
    | some y =>
      simp only [decide_eq_false_iff_not, ne_eq, Decidable.not_not, ← BitVec.toNat_inj]
      have := hf x
      omega

theorem mergedRep_eq (f g : FuncDescBuilder) (h : repMismatch f g = false) :
    mergedRep f g = BitVec.ofNat 8 (period f) := by
  have h2 := (repMismatch_iff f g).1 h
  unfold mergedRep
  unfold period at h2 ⊢
  cases hf : f.repSize with
  | some x => simp
  | none =>
    rw [hf] at h2
    cases hg : g.repSize with
    | none =>
      simp only
      rw [← BitVec.toNat_inj, BitVec.toNat_setWidth, BitVec.toNat_ofNat]
    | some y =>
      rw [hg] at h2
      simp only at h2 ⊢
      rw [h2.1]
      simp

theorem fres_eq_iff {f g : FuncDescBuilder} (hf : FdeInv f) (hg : FdeInv g) :
    f.fres = g.fres ↔ rows f = rows g := by
  have key : ∀ f : FuncDescBuilder, FdeInv f → f.fres = (rows f).map fun r => (r.startAddress, r) := by
    intro f hf
    unfold rows
    rw [List.map_map]
    conv => lhs; rw [← List.map_id f.fres]
    apply List.map_congr_left
    intro e he
    simp [← hf.key e he]
  constructor
  · intro h; unfold rows; rw [h]
  · intro h; rw [key f hf, key g hg, h]

/-- **C41, negation.**  Two adjacent functions of 16 bytes with equal keys and equal rows are not
merged, in both profiles. -/
theorem C41_not_merged (dbg : Bool) :
    ∃ (b : SFrameBuilder) (f g : FuncDescBuilder), SFrameBuilder.Reachable dbg b ∧
      functions b = [f, g] ∧ g.startAddress.toInt = f.startAddress.toInt + f.size.toNat ∧
      f.size = g.size ∧ f.repSize = none ∧ g.repSize = none ∧ f.size.toNat ≤ 255 ∧ Alike f g ∧
      b.mergeAdjacentFdes dbg = .ok b := by
  refine ⟨Samples.pair 0 16 16 16, _, _, Samples.pair_reachable dbg (by decide), rfl,
    by decide +kernel, rfl, rfl, rfl, by decide, by decide +kernel, ?_⟩
  cases dbg <;> decide +kernel

/-- **C41, negation for all inputs.**  If each function starts where the previous one ends and none
is larger than 255 bytes, nothing is ever merged. -/
theorem C41_never_merged (dbg dbg' : Bool) (b : SFrameBuilder)
    (hb : SFrameBuilder.Reachable dbg' b)
    (hn : ∀ (i : Nat) f g, (functions b)[i]? = some f → (functions b)[i + 1]? = some g →
      g.startAddress.toInt = f.startAddress.toInt + f.size.toNat ∧ f.size.toNat ≤ 255) :
    b.mergeAdjacentFdes dbg = .ok b := by
  obtain ⟨b', h, rfl, _⟩ := C40_merge_preserves_partial dbg dbg' b hb fun i f g hf hg => by
    obtain ⟨h1, h2⟩ := hn i f g hf hg
    unfold distance
    exact ⟨fun _ => by omega, by omega⟩
  exact h

/-- Three adjacent functions. -/
example : SFrameBuilder.mergeAdjacentFdes true { options := Samples.opts, fdes := [
      (-16, Samples.bare (-16) 16), (0, Samples.bare 0 16), (16, Samples.bare 16 16)] }
    = .ok { options := Samples.opts, fdes := [
      (-16, Samples.bare (-16) 16), (0, Samples.bare 0 16), (16, Samples.bare 16 16)] } := by
  decide +kernel

/-- **C41, partial.**  Missing: functions that really are adjacent (see the negations).  What the
code does with two functions, for all inputs: functions with the same key and more than `2 ^ 31`
apart are an overflow panic in debug builds; otherwise functions that are alike are merged, with the
period as repetition size, exactly if their distance plus the size of the first is `2 ^ 32`;
otherwise nothing changes. -/
theorem C41_two_partial (dbg dbg' : Bool) (b : SFrameBuilder)
    (hb : SFrameBuilder.Reachable dbg' b) (f g : FuncDescBuilder) (hfg : functions b = [f, g]) :
    b.mergeAdjacentFdes dbg =
      if dbg = true ∧ f.pauthKey = g.pauthKey ∧ 2147483648 < distance f g then .panic .overflow
      else if Alike f g ∧ distance f g + f.size.toNat = 4294967296 then
        .ok { b with fdes := [(f.startAddress, joined f g)] }
      else .ok b := by
  have hinv := hb.inv
  obtain ⟨opt, fdes⟩ := b
  match fdes, hfg, hinv with
  | [(k, cur), (k2, next)], hfg, hinv =>
  simp only [functions, List.map_cons, List.map_nil, List.cons.injEq, and_true] at hfg
  obtain ⟨rfl, rfl⟩ := hfg
  have hk1 : k = cur.startAddress := hinv.key (k, cur) (by simp)
  have hk2 : k2 = next.startAddress := hinv.key (k2, next) (by simp)
  have ho1 : cur.options = opt := hinv.options (k, cur) (by simp)
  have ho2 : next.options = opt := hinv.options (k2, next) (by simp)
  have hi1 : FdeInv cur := hinv.fde (k, cur) (by simp)
  have hi2 : FdeInv next := hinv.fde (k2, next) (by simp)
  have hs := hinv.sorted
  simp only at hs
  have hlt := (BMap.split_at (l := []) hs rfl).2 (k2, next) (by simp)
  simp only [ordI32] at hlt
  unfold SFrameBuilder.mergeAdjacentFdes
  simp only [BMap.first, List.head?_cons, List.length_cons, List.length_nil]
  have hend : ∀ n, mergeFdesLoop dbg (n + 1) [(k, cur), (k2, next)] k2
      = .ok [(k, cur), (k2, next)] := by
    intro n
    unfold mergeFdesLoop
    rw [BMap.rangeFrom_split (l := [(k, cur)]) hs rfl]
  unfold mergeFdesLoop
  rw [BMap.rangeFrom_split (l := []) hs rfl]
  simp only [← hk2]
  rw [if_neg (by simp [ho1, ho2])]
  by_cases hkey : cur.pauthKey = next.pauthKey
  case neg =>
    rw [if_pos hkey, hend, if_neg (fun h => hkey h.2.1), if_neg (fun h => hkey h.1.1)]
    rfl
  rw [if_neg (by simpa using hkey), ← hk1]
  have hdist : distance cur next = k2.toInt - k.toInt := by unfold distance; rw [← hk1, ← hk2]
  have b1 := BitVec.le_toInt k
  have b2 := BitVec.toInt_lt (x := k)
  have b3 := BitVec.le_toInt k2
  have b4 := BitVec.toInt_lt (x := k2)
  by_cases hov : dbg = true ∧ 2147483648 < distance cur next
  · have hP : dbg = true ∧ cur.pauthKey = next.pauthKey ∧ 2147483648 < distance cur next :=
      ⟨hov.1, hkey, hov.2⟩
    rw [if_pos hP]
    have hsub : subI32 dbg k k2 = .panic .overflow := by
      unfold subI32
      rw [if_pos]
      simp only [hov.1, Bool.true_and, Bool.not_eq_true', Bool.and_eq_false_iff,
            decide_eq_false_iff_not]
      omega
    rw [hsub]
    rfl
  have hP : ¬ (dbg = true ∧ cur.pauthKey = next.pauthKey ∧ 2147483648 < distance cur next) :=
    fun h => hov ⟨h.1, h.2.2⟩
  rw [if_neg hP]
  have hsub : subI32 dbg k k2 = .ok (k - k2) := by
    unfold subI32
    rw [if_neg]
    simp only [Bool.and_eq_true, Bool.not_eq_true', Bool.and_eq_false_iff,
        decide_eq_false_iff_not]
    rintro ⟨h1, h2⟩
    apply hov
    exact ⟨h1, by omega⟩
  rw [hsub, Rust.bind_ok]
  by_cases hrel : k - k2 = cur.size
  case neg =>
    rw [if_pos hrel, hend, if_neg]
    · rfl
    · rintro ⟨-, h⟩
      rw [hdist] at h
      exact hrel ((relative_iff hlt _).2 h)
  rw [if_neg (by simpa using hrel)]
  by_cases hadd : 2 ^ 32 ≤ cur.size.toNat + next.size.toNat
  case pos =>
    rw [if_pos hadd, hend, if_neg]
    · rfl
    · rintro ⟨h, -⟩
      have := h.2.2.2.2
      omega
  rw [if_neg hadd]
  cases hrep : repMismatch cur next with
  | true =>
    rw [if_pos rfl, hend, if_neg]
    · rfl
    · rintro ⟨h, -⟩
      have := (repMismatch_iff cur next).2 ⟨h.2.2.1, h.2.2.2.1⟩
      rw [hrep] at this
      cases this
  | false =>
    rw [if_neg (by simp)]
    by_cases hfres : cur.fres = next.fres
    case neg =>
      rw [if_pos hfres, hend, if_neg]
      · rfl
      · rintro ⟨h, -⟩
        exact hfres ((fres_eq_iff hi1 hi2).2 h.2.1)
    rw [if_neg (by simpa using hfres)]
    obtain ⟨hp1, hp2⟩ := (repMismatch_iff cur next).1 hrep
    have hQ : Alike cur next ∧ distance cur next + cur.size.toNat = 4294967296 :=
      ⟨⟨hkey, (fres_eq_iff hi1 hi2).1 hfres, hp1, hp2, by omega⟩,
        by rw [hdist]; exact (relative_iff hlt _).1 hrel⟩
    rw [if_pos hQ]
    rw [mergedRep_eq cur next hrep]
    have hne : k.toInt ≠ k2.toInt := by omega
    have hset : (BMap.remove ordI32 k2 (BMap.setAt ordI32 k { cur with
        startAddress := k, repSize := some (BitVec.ofNat 8 (period cur)), size := cur.size + next.size }
          [(k, cur), (k2, next)])) = [(k, joined cur next)] := by
      have hsz : cur.size + next.size = BitVec.ofNat 32 (cur.size.toNat + next.size.toNat) := by
        rw [← BitVec.toNat_inj, BitVec.toNat_add, BitVec.toNat_ofNat]
      simp [BMap.setAt, BMap.remove, ordI32, hne, hne.symm, joined, hsz, ← hk1]
    rw [hset]
    unfold mergeFdesLoop
    rw [show BMap.rangeFrom ordI32 k [(k, joined cur next)] = [(k, joined cur next)] by
      simp [BMap.rangeFrom]]
    rfl

/-- The two functions that repeat every three bytes are merged, and the others are not. -/
example : Alike (Samples.three 0x80000000 0x80000000) (Samples.three 0 8) ∧
    distance (Samples.three 0x80000000 0x80000000) (Samples.three 0 8) + 0x80000000 = 4294967296 ∧
    Samples.threes.mergeAdjacentFdes true = .ok { options := Samples.opts, fdes := [(0x80000000,
      joined (Samples.three 0x80000000 0x80000000) (Samples.three 0 8))] } ∧
    Samples.sec.mergeAdjacentFdes true = .ok Samples.sec := by
  decide +kernel

end Verif
