import Verif.Props.Merge
/-!
# `merge_adjacent_fdes` on any number of functions: C40, C41

`C41_two_partial` says what the code does with two functions.  Here is what it does with any number
of them, and when it changes nothing.
-/

namespace Verif.Spec

/-- The code takes the difference of the starts as an `i32`, and debug builds panic if it does not
fit. -/
def TooFar (f g : FuncDescBuilder) : Prop :=
  f.pauthKey = g.pauthKey ∧ 2147483648 < distance f g

instance (f g : FuncDescBuilder) : Decidable (TooFar f g) :=
  inferInstanceAs (Decidable (_ ∧ _))

/-- The mistaken condition under which the code merges. -/
def Wrapped (f g : FuncDescBuilder) : Prop :=
  Alike f g ∧ distance f g + f.size.toNat = 4294967296

instance (f g : FuncDescBuilder) : Decidable (Wrapped f g) :=
  inferInstanceAs (Decidable (_ ∧ _))

/-- The functions that are left of `f` and the functions behind it; `none` is a panic. -/
def mergeFrom (dbg : Bool) (f : FuncDescBuilder) :
    List FuncDescBuilder → Option (List FuncDescBuilder)
  | [] => some [f]
  | g :: rest =>
    if dbg = true ∧ TooFar f g then none
    else if Wrapped f g then mergeFrom dbg (joined f g) rest
    else (mergeFrom dbg g rest).map (f :: ·)

/-- The functions that are left of a whole section. -/
def mergeAll (dbg : Bool) : List FuncDescBuilder → Option (List FuncDescBuilder)
  | [] => some []
  | f :: rest => mergeFrom dbg f rest

/-- The section with the options of `b` and the functions `fs`. -/
def withFunctions (b : SFrameBuilder) (fs : List FuncDescBuilder) : SFrameBuilder :=
  { options := b.options, fdes := fs.map fun f => (f.startAddress, f) }

end Verif.Spec

namespace Verif
open Spec SFrameBuilder

/-- The result of the loop, given what is left. -/
def loopResult (l : BMap I32 FuncDescBuilder) :
    Option (List FuncDescBuilder) → Rust (BMap I32 FuncDescBuilder)
  | none => .panic .overflow
  | some out => .ok (l ++ out.map fun f => (f.startAddress, f))

theorem loopResult_skip (l : BMap I32 FuncDescBuilder) (f : FuncDescBuilder)
    (o : Option (List FuncDescBuilder)) :
    loopResult (l ++ [(f.startAddress, f)]) o = loopResult l (o.map (f :: ·)) := by
  cases o <;> simp [loopResult]

theorem mergeFdesLoop_exact {dbg : Bool} {opt : SFrameOptions} (fuel : Nat)
    (l r : BMap I32 FuncDescBuilder) (k : I32)
    (cur : FuncDescBuilder) (hs : BMap.Sorted ordI32 (l ++ (k, cur) :: r))
    (hk : ∀ e ∈ (k, cur) :: r, e.1 = e.2.startAddress ∧ e.2.options = opt ∧ FdeInv e.2)
    (hf : r.length < fuel) :
    mergeFdesLoop dbg fuel (l ++ (k, cur) :: r) k
      = loopResult l (mergeFrom dbg cur (r.map Prod.snd)) := by
  induction fuel generalizing l r k cur with
  | zero => omega
  | succ fuel ih =>
    unfold mergeFdesLoop
    rw [BMap.rangeFrom_split hs rfl]
    obtain ⟨hk1, ho1, hi1⟩ := hk (k, cur) (by simp)
    simp only at hk1 ho1 hi1
    match r, hk, hs, hf with
    | [], _, _, _ => simp [loopResult, mergeFrom, ← hk1]
    | (k2, next) :: r, hk, hs, hf =>
      obtain ⟨hk2, ho2, hi2⟩ := hk (k2, next) (by simp)
      simp only at hk2 ho2 hi2
      simp only [List.length_cons] at hf
      have hskip : ¬ Wrapped cur next →
          mergeFdesLoop dbg fuel (l ++ (k, cur) :: (k2, next) :: r) k2
            = loopResult l (if Wrapped cur next then mergeFrom dbg (joined cur next) (r.map Prod.snd)
                else (mergeFrom dbg next (r.map Prod.snd)).map (cur :: ·)) := by
        intro hw
        rw [if_neg hw]
        rw [show l ++ (k, cur) :: (k2, next) :: r = (l ++ [(k, cur)]) ++ (k2, next) :: r by simp,
          ih (l ++ [(k, cur)]) r k2 next (by simpa using hs)
            (fun e he => hk e (List.mem_cons_of_mem _ he)) (by omega), hk1]
        exact loopResult_skip l cur _
      simp only [List.map_cons, mergeFrom]
      have hlt := (BMap.split_at hs rfl).2 (k2, next) (by simp)
      simp only [ordI32] at hlt
      have hdist : distance cur next = k2.toInt - k.toInt := by unfold distance; rw [← hk1, ← hk2]
      simp only [← hk2]
      rw [if_neg (by simp [ho1, ho2])]
      by_cases hkey : cur.pauthKey = next.pauthKey
      case neg =>
        rw [if_pos hkey, if_neg (fun h => hkey h.2.1)]
        exact hskip fun h => hkey h.1.1
      rw [if_neg (by simpa using hkey), ← hk1]
      have b1 := BitVec.le_toInt k
      have b2 := BitVec.toInt_lt (x := k)
      have b3 := BitVec.le_toInt k2
      have b4 := BitVec.toInt_lt (x := k2)
      by_cases hov : dbg = true ∧ 2147483648 < distance cur next
      · have hP : dbg = true ∧ TooFar cur next := ⟨hov.1, hkey, hov.2⟩
        rw [if_pos hP]
        have hsub : subI32 dbg k k2 = .panic .overflow := by
          unfold subI32
          rw [if_pos]
          simp only [hov.1, Bool.true_and, Bool.not_eq_true', Bool.and_eq_false_iff,
                decide_eq_false_iff_not]
          omega
        rw [hsub]
        rfl
      have hP : ¬ (dbg = true ∧ TooFar cur next) := fun h => hov ⟨h.1, h.2.2⟩
      rw [if_neg hP]
      have hsub : subI32 dbg k k2 = .ok (k - k2) := by
        unfold subI32
        rw [if_neg]
        simp only [Bool.and_eq_true, Bool.not_eq_true', Bool.and_eq_false_iff,
            decide_eq_false_iff_not]
        rintro ⟨h1, h2⟩
        apply hov
        exact ⟨h1, by omega⟩
      rw [hsub, Rust.bind_ok]
      by_cases hrel : k - k2 = cur.size
      case neg =>
        rw [if_pos hrel]
        refine hskip ?_
        rintro ⟨-, h⟩
        rw [hdist] at h
        exact hrel ((relative_iff hlt _).2 h)
      rw [if_neg (by simpa using hrel)]
      by_cases hadd : 2 ^ 32 ≤ cur.size.toNat + next.size.toNat
      case pos =>
        rw [if_pos hadd]
        refine hskip ?_
        rintro ⟨h, -⟩
        have := h.2.2.2.2
        omega
      rw [if_neg hadd]
      cases hrep : repMismatch cur next with
      | true =>
        rw [if_pos rfl]
        refine hskip ?_
        rintro ⟨h, -⟩
        have := (repMismatch_iff cur next).2 ⟨h.2.2.1, h.2.2.2.1⟩
        rw [hrep] at this
        cases this
      | false =>
        rw [if_neg (by simp)]
        by_cases hfres : cur.fres = next.fres
        case neg =>
          rw [if_pos hfres]
          refine hskip ?_
          rintro ⟨h, -⟩
          exact hfres ((fres_eq_iff hi1 hi2).2 h.2.1)
        rw [if_neg (by simpa using hfres)]
        obtain ⟨hp1, hp2⟩ := (repMismatch_iff cur next).1 hrep
        have hQ : Wrapped cur next :=
          ⟨⟨hkey, (fres_eq_iff hi1 hi2).1 hfres, hp1, hp2, by omega⟩,
            by rw [hdist]; exact (relative_iff hlt _).1 hrel⟩
        rw [if_pos hQ, mergedRep_eq cur next hrep]
        have hj : ({ cur with startAddress := k, repSize := some (BitVec.ofNat 8 (period cur)),
                              size := cur.size + next.size } : FuncDescBuilder) = joined cur next := by
          have hsz : cur.size + next.size = BitVec.ofNat 32 (cur.size.toNat + next.size.toNat) := by
            rw [← BitVec.toNat_inj, BitVec.toNat_add, BitVec.toNat_ofNat]
          simp [joined, hsz, hk1]
        rw [hj]
        have hset : (l ++ (k, cur) :: (k2, next) :: r : BMap I32 FuncDescBuilder).setAt ordI32 k
            (joined cur next) = l ++ (k, joined cur next) :: (k2, next) :: r :=
          BMap.setAt_split hs rfl
        have hs' := BMap.setAt_sorted (k := k) (v := joined cur next) hs
        rw [hset] at hs' ⊢
        have hrem := BMap.remove_split hs' (l := l ++ [(k, joined cur next)])
          (k := k2) (v := next) (r := r) (by simp)
        rw [hrem]
        have hs'' := BMap.remove_sorted (k := k2) hs'
        rw [hrem] at hs''
        rw [List.append_assoc] at hs'' ⊢
        simp only [List.cons_append, List.nil_append] at hs'' ⊢
        refine ih l r k (joined cur next) hs'' (fun e he => ?_) (by omega)
        rcases List.mem_cons.1 he with rfl | he
        · exact ⟨hk1, ho1, ⟨hi1.sorted, hi1.key, hi1.small, hi1.dropped⟩⟩
        · exact hk e (by simp [he])

/-- **C40, exact.**  Missing: that unwinding is preserved (see the negations).  What the code does
with every section of any number of functions, in both profiles: it goes through the functions from
the lowest start on and compares each with its successor.  Functions with the same key and more than
`2 ^ 31` apart are an overflow panic in debug builds.  Functions that are alike become one, which is
compared with the next, exactly if their distance plus the size of the first is `2 ^ 32`.  All other
functions are kept as they are. -/
theorem C40_exact_partial (dbg dbg' : Bool) (b : SFrameBuilder)
    (hb : SFrameBuilder.Reachable dbg' b) :
    (mergeAll dbg (functions b) = none ∧ b.mergeAdjacentFdes dbg = .panic .overflow) ∨
    ∃ fs, mergeAll dbg (functions b) = some fs ∧
      b.mergeAdjacentFdes dbg = .ok (withFunctions b fs) := by
  have h := hb.inv
  unfold SFrameBuilder.mergeAdjacentFdes
  obtain ⟨opt, fdes⟩ := b
  cases fdes with
  | nil => exact .inr ⟨[], rfl, rfl⟩
  | cons e r =>
    obtain ⟨k, cur⟩ := e
    simp only [BMap.first, List.head?_cons]
    have hh := mergeFdesLoop_exact (dbg := dbg) (opt := opt) (((k, cur) :: r).length + 1) [] r k cur
      (by simpa using h.sorted) (fun e he => ⟨h.key e he, h.options e he, h.fde e he⟩)
      (by simp; omega)
    simp only [List.nil_append] at hh
    rw [hh]
    show (mergeFrom dbg cur (r.map Prod.snd) = none ∧ _) ∨
      ∃ fs, mergeFrom dbg cur (r.map Prod.snd) = some fs ∧ _
    cases hm : mergeFrom dbg cur (r.map Prod.snd) with
    | none => exact .inl ⟨rfl, rfl⟩
    | some fs => exact .inr ⟨fs, rfl, rfl⟩

theorem mergeFrom_length {dbg : Bool} {f : FuncDescBuilder} {l out : List FuncDescBuilder}
    (h : mergeFrom dbg f l = some out) : out.length ≤ l.length + 1 := by
  induction l generalizing f out with
  | nil => simp only [mergeFrom, Option.some.injEq] at h; subst h; simp
  | cons g l ih =>
    simp only [mergeFrom] at h
    split at h
    · cases h
    · split at h
      · have := ih h
        simp only [List.length_cons]
        omega
      · cases hm : mergeFrom dbg g l with
        | none => rw [hm] at h; cases h
        | some o =>
          rw [hm] at h
          simp only [Option.map_some, Option.some.injEq] at h
          subst h
          have := ih hm
          simp only [List.length_cons]
          omega

theorem mergeFrom_same {dbg : Bool} {f : FuncDescBuilder} {l : List FuncDescBuilder} :
    mergeFrom dbg f l = some (f :: l) ↔
      ∀ (i : Nat) x y, (f :: l)[i]? = some x → l[i]? = some y →
        ¬ (dbg = true ∧ TooFar x y) ∧ ¬ Wrapped x y := by
  induction l generalizing f with
  | nil => simp [mergeFrom]
  | cons g l ih =>
    have step : (∀ (i : Nat) x y, (f :: g :: l)[i]? = some x → (g :: l)[i]? = some y →
        ¬ (dbg = true ∧ TooFar x y) ∧ ¬ Wrapped x y) ↔
        (¬ (dbg = true ∧ TooFar f g) ∧ ¬ Wrapped f g) ∧
        ∀ (i : Nat) x y, (g :: l)[i]? = some x → l[i]? = some y →
          ¬ (dbg = true ∧ TooFar x y) ∧ ¬ Wrapped x y := by
      constructor
      · intro h
        exact ⟨h 0 f g rfl rfl, fun i x y hx hy => h (i + 1) x y hx hy⟩
      · rintro ⟨h0, h⟩ i x y hx hy
        cases i with
        | zero => cases hx; cases hy; exact h0
        | succ i => exact h i x y hx hy
    rw [step, ← ih]
    simp only [mergeFrom]
    split
    · rename_i h
      simp [h]
    · rename_i h1
      split
      · rename_i h2
        constructor
        · intro h
          have := mergeFrom_length h
          simp only [List.length_cons] at this
          omega
        · rintro ⟨⟨-, h⟩, -⟩
          exact absurd h2 h
      · rename_i h2
        constructor
        · intro h
          refine ⟨⟨h1, h2⟩, ?_⟩
          cases hm : mergeFrom dbg g l with
          | none => rw [hm] at h; cases h
          | some o =>
            rw [hm] at h
            simp only [Option.map_some, Option.some.injEq, List.cons.injEq, true_and] at h
            rw [h]
        · rintro ⟨-, h⟩
          rw [h]
          rfl

theorem withFunctions_self {b : SFrameBuilder} (h : BuilderInv b) :
    withFunctions b (functions b) = b := by
  obtain ⟨opt, fdes⟩ := b
  simp only [withFunctions, functions, List.map_map, SFrameBuilder.mk.injEq, true_and]
  conv => rhs; rw [← List.map_id fdes]
  apply List.map_congr_left
  intro e he
  have := h.key e he
  simp [← this]

theorem functions_withFunctions (b : SFrameBuilder) (fs : List FuncDescBuilder) :
    functions (withFunctions b fs) = fs := by
  simp only [functions, withFunctions, List.map_map]
  exact List.map_id fs

/-- **C40, exact.**  Missing: that unwinding is preserved by the merges that happen.  The code
leaves a section as it is exactly if no two neighbours meet the mistaken condition (and, in debug
builds, none are too far apart): the sufficient condition of `C40_merge_preserves_partial` is also
necessary. -/
theorem C40_unchanged_iff_partial (dbg dbg' : Bool) (b : SFrameBuilder)
    (hb : SFrameBuilder.Reachable dbg' b) :
    b.mergeAdjacentFdes dbg = .ok b ↔
      ∀ (i : Nat) f g, (functions b)[i]? = some f → (functions b)[i + 1]? = some g →
        ¬ (dbg = true ∧ TooFar f g) ∧ ¬ Wrapped f g := by
  have hw := withFunctions_self hb.inv
  have hall : b.mergeAdjacentFdes dbg = .ok b ↔
      mergeAll dbg (functions b) = some (functions b) := by
    rcases C40_exact_partial dbg dbg' b hb with ⟨h1, h2⟩ | ⟨fs, h1, h2⟩
    · rw [h1, h2]
      constructor <;> intro h <;> cases h
    · rw [h1, h2]
      constructor
      · intro h
        simp only [Rust.ok.injEq] at h
        rw [← functions_withFunctions b fs, h]
      · intro h
        simp only [Option.some.injEq] at h
        rw [h, hw]
  rw [hall]
  cases functions b with
  | nil => simp [mergeAll]
  | cons f l => exact mergeFrom_same

/-- **C41, partial.**  Missing: as in `C41_two_partial`.  A function takes in at most one other:
after a merge the condition never holds again for the function that has grown. -/
theorem C41_once_partial (f g h : FuncDescBuilder) (hw : Wrapped f g)
    (hlt : g.startAddress.toInt < h.startAddress.toInt) : ¬ Wrapped (joined f g) h := by
  rintro ⟨-, h2⟩
  have h1 := hw.2
  have hs := hw.1.2.2.2.2
  unfold distance joined at h2
  unfold distance at h1
  simp only [BitVec.toNat_ofNat] at h2
  rw [Nat.mod_eq_of_lt hs] at h2
  omega

namespace Samples

/-- Four functions.  The first two repeat every three bytes and are exactly `2 ^ 31` apart, so they
are merged; the others are kept. -/
def fours : SFrameBuilder :=
  { options := opts, fdes := [(0x80000000, three 0x80000000 0x80000000), (0, three 0 8),
      (0x10, bare 0x10 16), (0x20, bare 0x20 16)] }

theorem fours_reachable (dbg : Bool) : SFrameBuilder.Reachable dbg fours :=
  .fde (.fde (threes_reachable dbg) (f := bare 0x10 16) (.new opts 0x10 16)
    (b' := { threes with fdes := threes.fdes ++ [(0x10, bare 0x10 16)] }) (by decide +kernel))
    (f := bare 0x20 16) (.new opts 0x20 16) (by decide +kernel)

end Samples

/-- Debug builds panic on the third function, which is too far from the first, the one that has
grown; release builds merge the first two functions and keep the others. -/
example : Samples.fours.mergeAdjacentFdes true = .panic .overflow ∧
    Samples.fours.mergeAdjacentFdes false = .ok (withFunctions Samples.fours
      [joined (Samples.three 0x80000000 0x80000000) (Samples.three 0 8),
        Samples.bare 0x10 16, Samples.bare 0x20 16]) ∧
    mergeAll true (functions Samples.fours) = none ∧
    Wrapped (Samples.three 0x80000000 0x80000000) (Samples.three 0 8) := by
  decide +kernel

/-- Three functions, none of which meets the condition. -/
example : mergeAll true [Samples.bare (-16) 16, Samples.bare 0 16, Samples.three 16 16]
    = some [Samples.bare (-16) 16, Samples.bare 0 16, Samples.three 16 16] := by
  decide +kernel

end Verif
