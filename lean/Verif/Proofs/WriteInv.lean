import Verif.Model.Write
import Verif.Proofs.BMap
/-!
# Invariants of the builders under arbitrary call sequences
-/

namespace Verif

/-- Offsets that the section header fixes are not stored. -/
def FixedDropped (o : SFrameOptions) (r : FrameRowBuilder) : Prop :=
  ∀ x, r.offsets = some x → (o.fixedRa.isSome → x.ra = none) ∧ (o.fixedFp.isSome → x.fp = none)

/-- What holds of every function builder: rows in order, keyed by their start, small starts. -/
structure FdeInv (f : FuncDescBuilder) : Prop where
  sorted : f.fres.Sorted ordU32
  key : ∀ e ∈ f.fres, e.1 = e.2.startAddress
  small : ∀ e ∈ f.fres, e.2.startAddress.toNat < 0x10000000
  dropped : ∀ e ∈ f.fres, FixedDropped f.options e.2

/-- What holds of every section builder. -/
structure BuilderInv (b : SFrameBuilder) : Prop where
  sorted : b.fdes.Sorted ordI32
  key : ∀ e ∈ b.fdes, e.1 = e.2.startAddress
  options : ∀ e ∈ b.fdes, e.2.options = b.options
  fde : ∀ e ∈ b.fdes, FdeInv e.2

/-! ### `row` -/

instance (o : Option U8) (n : Nat) : Decidable (∃ rep, o = some rep ∧ n ≥ rep.toNat) :=
  match o with
  | none => .isFalse (by simp)
  | some rep => decidable_of_iff (n ≥ rep.toNat) (by simp)

/-- The checks of `row` that do not look at the rows already present, and the row to be stored. -/
def FuncDescBuilder.checkRow (b : FuncDescBuilder) (r : FrameRowBuilder) :
    Except FrameRowError FrameRowBuilder :=
  if r.startAddress.toNat ≥ 0x10000000 then .error .startAddressTooLarge
  else if ∃ rep, b.repSize = some rep ∧ r.startAddress.toNat ≥ rep.toNat then
    .error .startAddressLargerThanRepSize
  else if r.startAddress.toNat ≥ b.size.toNat then .error .startAddressOutsideFde
  else match r.offsets with
    | none => Except.ok r
    | some offsets =>
      match normRa b.options offsets with
      | .error e => .error e
      | .ok offsets =>
        match normFp b.options offsets with
        | .error e => .error e
        | .ok offsets => .ok { r with offsets := some offsets }

theorem FuncDescBuilder.row_eq (b : FuncDescBuilder) (r : FrameRowBuilder) :
    b.row r = match b.checkRow r with
      | .error e => .error e
      | .ok r => match b.fres.get ordU32 r.startAddress with
        | some _ => .error .duplicateRow
        | none => .ok { b with fres := b.fres.insert ordU32 r.startAddress r } := by
  unfold FuncDescBuilder.row FuncDescBuilder.checkRow
  cases b.repSize with
  | none =>
    simp only [Bool.false_eq_true, if_false, reduceCtorEq, false_and, exists_false]
    split
    · rfl
    split
    · rfl
    cases r.offsets with
    | none => rfl
    | some offsets =>
      simp only
      cases FuncDescBuilder.normRa b.options offsets with
      | error e => rfl
      | ok offsets =>
        simp only
        cases FuncDescBuilder.normFp b.options offsets with
        | error e => rfl
        | ok offsets => rfl
  | some rep =>
    simp only [decide_eq_true_eq, Option.some.injEq, exists_eq_left']
    split
    · rfl
    split
    · rfl
    split
    · rfl
    cases r.offsets with
    | none => rfl
    | some offsets =>
      simp only
      cases FuncDescBuilder.normRa b.options offsets with
      | error e => rfl
      | ok offsets =>
        simp only
        cases FuncDescBuilder.normFp b.options offsets with
        | error e => rfl
        | ok offsets => rfl

theorem normRa_ok {o : SFrameOptions} {x y : FrameRowOffsets}
    (h : FuncDescBuilder.normRa o x = .ok y) :
    (o.fixedRa.isSome → y.ra = none) ∧ y.cfa = x.cfa ∧ y.fp = x.fp ∧ (o.fixedRa = none → y.ra = x.ra) := by
  unfold FuncDescBuilder.normRa at h
  split at h
  · rename_i hn
    cases h
    simp [hn]
  · split at h
    · split at h
      · cases h; simp [*]
      · cases h
    · cases h; simp [*]

theorem normFp_ok {o : SFrameOptions} {x y : FrameRowOffsets}
    (h : FuncDescBuilder.normFp o x = .ok y) :
    (o.fixedFp.isSome → y.fp = none) ∧ y.cfa = x.cfa ∧ y.ra = x.ra ∧ (o.fixedFp = none → y.fp = x.fp) := by
  unfold FuncDescBuilder.normFp at h
  split at h
  · rename_i hn
    cases h
    simp [hn]
  · split at h
    · split at h
      · cases h; simp [*]
      · cases h
    · cases h; simp [*]

theorem checkRow_ok {b : FuncDescBuilder} {r r' : FrameRowBuilder} (h : b.checkRow r = .ok r') :
    r'.startAddress = r.startAddress ∧ r'.baseReg = r.baseReg ∧ r'.mangled = r.mangled ∧
    r.startAddress.toNat < 0x10000000 ∧ r.startAddress.toNat < b.size.toNat ∧
    (∀ rep, b.repSize = some rep → r.startAddress.toNat < rep.toNat) ∧
    FixedDropped b.options r' := by
  unfold FuncDescBuilder.checkRow at h
  split at h
  · cases h
  rename_i h1
  split at h
  · cases h
  rename_i h2
  split at h
  · cases h
  rename_i h3
  have hrep : ∀ rep, b.repSize = some rep → r.startAddress.toNat < rep.toNat := by
    intro rep hrep
    exact Nat.lt_of_not_le fun hh => h2 ⟨rep, hrep, hh⟩
  split at h
  · rename_i hn
    cases h
    refine ⟨rfl, rfl, rfl, by omega, by omega, hrep, ?_⟩
    intro x hx; rw [hn] at hx; cases hx
  · split at h
    · cases h
    · rename_i y hy
      split at h
      · cases h
      · rename_i z hz
        cases h
        refine ⟨rfl, rfl, rfl, by omega, by omega, hrep, ?_⟩
        intro x hx
        simp only [Option.some.injEq] at hx
        subst hx
        obtain ⟨e1, e2, e3, e4⟩ := normRa_ok hy
        obtain ⟨f1, f2, f3, f4⟩ := normFp_ok hz
        exact ⟨fun h => by rw [f3]; exact e1 h, f1⟩

theorem FdeInv.row {b b' : FuncDescBuilder} {r : FrameRowBuilder} (h : FdeInv b)
    (hr : b.row r = .ok b') : FdeInv b' := by
  rw [FuncDescBuilder.row_eq] at hr
  split at hr
  · cases hr
  · rename_i r' hc
    split at hr
    · cases hr
    · rename_i hg
      cases hr
      obtain ⟨c1, _, _, c4, c5, c6, c7⟩ := checkRow_ok hc
      refine ⟨BMap.insert_sorted h.sorted, ?_, ?_, ?_⟩
      · intro e he
        rcases BMap.mem_insert he with rfl | he
        · rfl
        · exact h.key e he
      · intro e he
        rcases BMap.mem_insert he with rfl | he
        · simp only [c1]; exact c4
        · exact h.small e he
      · intro e he
        rcases BMap.mem_insert he with rfl | he
        · exact c7
        · exact h.dropped e he

/-! ### `merge_adjacent_fres` -/

/-- Same row up to its start. -/
def SameRule (a b : FrameRowBuilder) : Prop :=
  { a with startAddress := 0 } = { b with startAddress := 0 }

instance (a b : FrameRowBuilder) : Decidable (SameRule a b) :=
  inferInstanceAs (Decidable (_ = _))

/-- What the loop does to a list of rows: drop each row that repeats the last one kept. -/
def mergeKeep : List (U32 × FrameRowBuilder) → List (U32 × FrameRowBuilder)
  | [] => []
  | [e] => [e]
  | e :: e' :: rest =>
    if SameRule e.2 e'.2 then mergeKeep (e :: rest) else e :: mergeKeep (e' :: rest)
  termination_by l => l.length

theorem mergeFresLoop_eq (fuel : Nat) (l r : BMap U32 FrameRowBuilder) (k : U32)
    (cur : FrameRowBuilder) (hs : BMap.Sorted ordU32 (l ++ (k, cur) :: r))
    (hk : ∀ e ∈ r, e.1 = e.2.startAddress) (hf : r.length < fuel) :
    FuncDescBuilder.mergeFresLoop fuel (l ++ (k, cur) :: r) k
      = .ok (l ++ mergeKeep ((k, cur) :: r)) := by
  induction fuel generalizing l r k cur with
  | zero => omega
  | succ fuel ih =>
    unfold FuncDescBuilder.mergeFresLoop
    rw [BMap.rangeFrom_split hs rfl]
    match r, hk, hs, hf with
    | [], _, _, _ => simp [mergeKeep]
    | (k2, next) :: r, hk, hs, hf =>
      have hk2 : k2 = next.startAddress := hk (k2, next) (by simp)
      simp only [List.length_cons] at hf
      simp only
      rw [mergeKeep]
      by_cases hsame : SameRule cur next
      · rw [if_neg (by simpa [SameRule] using hsame), if_pos hsame]
        have hrem : (l ++ (k, cur) :: (k2, next) :: r : BMap U32 FrameRowBuilder).remove ordU32 k2
            = l ++ (k, cur) :: r := by
          rw [BMap.remove_split hs (l := l ++ [(k, cur)]) (k := k2) (v := next) (r := r) (by simp)]
          simp
        rw [← hk2, hrem]
        apply ih
        · rw [← hrem]; exact BMap.remove_sorted hs
        · intro e he; exact hk e (by simp [he])
        · omega
      · rw [if_pos (by simpa [SameRule] using hsame), if_neg hsame, ← hk2]
        rw [show l ++ (k, cur) :: (k2, next) :: r = (l ++ [(k, cur)]) ++ (k2, next) :: r by simp]
        rw [ih (l ++ [(k, cur)]) r k2 next (by simpa using hs)
          (fun e he => hk e (by simp [he])) (by omega)]
        simp

theorem mergeAdjacentFres_eq {f : FuncDescBuilder} (h : FdeInv f) :
    f.mergeAdjacentFres = .ok { f with fres := mergeKeep f.fres } := by
  obtain ⟨hs, hk, _, _⟩ := h
  unfold FuncDescBuilder.mergeAdjacentFres
  cases hfr : f.fres with
  | nil =>
    simp only [BMap.first, List.head?_nil]
    obtain ⟨a, b, c, d, e, g⟩ := f
    simp only at hfr
    simp [hfr, mergeKeep]
  | cons e r =>
    obtain ⟨k, cur⟩ := e
    rw [hfr] at hs hk
    simp only [BMap.first, List.head?_cons]
    have := mergeFresLoop_eq (((k, cur) :: r).length + 1) [] r k cur (by simpa using hs)
      (fun e he => hk e (by simp [he])) (by simp; omega)
    simp only [List.nil_append] at this
    rw [this]
    rfl

theorem mergeKeep_sublist (l : List (U32 × FrameRowBuilder)) : (mergeKeep l).Sublist l := by
  induction l using mergeKeep.induct with
  | case1 => simp [mergeKeep]
  | case2 e => simp [mergeKeep]
  | case3 e e' rest hs ih =>
    rw [mergeKeep, if_pos hs]
    exact ih.trans (List.Sublist.cons_cons _ (List.sublist_cons_self _ _))
  | case4 e e' rest hs ih =>
    rw [mergeKeep, if_neg hs]
    exact List.Sublist.cons_cons _ ih

theorem mergeKeep_head (e : U32 × FrameRowBuilder) (l : List (U32 × FrameRowBuilder)) :
    (mergeKeep (e :: l)).head? = some e := by
  induction l generalizing e with
  | nil => simp [mergeKeep]
  | cons e' rest ih =>
    rw [mergeKeep]
    split
    · exact ih e
    · rfl

theorem FdeInv.mergeAdjacentFres {f f' : FuncDescBuilder} (h : FdeInv f)
    (hm : f.mergeAdjacentFres = .ok f') : FdeInv f' := by
  rw [mergeAdjacentFres_eq h] at hm
  cases hm
  have hsub := mergeKeep_sublist f.fres
  exact ⟨List.Pairwise.sublist hsub h.sorted, fun e he => h.key e (hsub.subset he),
    fun e he => h.small e (hsub.subset he), fun e he => h.dropped e (hsub.subset he)⟩

/-! ### All function builders -/

theorem FdeInv.call {f f' : FuncDescBuilder} (h : FdeInv f) (c : FdeCall)
    (hc : f.call c = .ok f') : FdeInv f' := by
  cases c with
  | pcinc => cases hc; exact ⟨h.1, h.2, h.3, h.4⟩
  | pcmask rep => cases hc; exact ⟨h.1, h.2, h.3, h.4⟩
  | startAddress a => cases hc; exact ⟨h.1, h.2, h.3, h.4⟩
  | size n => cases hc; exact ⟨h.1, h.2, h.3, h.4⟩
  | pauthKey k => cases hc; exact ⟨h.1, h.2, h.3, h.4⟩
  | mergeAdjacentFres => exact h.mergeAdjacentFres hc
  | row r =>
    unfold FuncDescBuilder.call at hc
    simp only at hc
    split at hc
    · rename_i b' hb
      cases hc
      exact h.row hb
    · cases hc; exact h

theorem FuncDescBuilder.Reachable.inv {f : FuncDescBuilder} (h : f.Reachable) : FdeInv f := by
  induction h with
  | new options start size => exact ⟨by simp [FuncDescBuilder.new, BMap.Sorted],
      by simp [FuncDescBuilder.new], by simp [FuncDescBuilder.new], by simp [FuncDescBuilder.new]⟩
  | call c _ hc ih => exact ih.call c hc

/-! ### `merge_adjacent_fdes` -/

/-- What the loop does to the functions from the cursor on. -/
inductive MergeStep (dbg : Bool) :
    BMap I32 FuncDescBuilder → BMap I32 FuncDescBuilder → Prop
  | done (e) : MergeStep dbg [e] [e]
  | skip {e e' rest out} (h : MergeStep dbg (e' :: rest) out) : MergeStep dbg (e :: e' :: rest) (e :: out)
  | merge {k k' cur next rest out}
      (hkey : cur.pauthKey = next.pauthKey)
      (hrel : cur.startAddress - next.startAddress = cur.size)
      (hdbg : dbg = true → -2147483648 ≤ cur.startAddress.toInt - next.startAddress.toInt)
      (hadd : cur.size.toNat + next.size.toNat < 2 ^ 32)
      (hrep : SFrameBuilder.repMismatch cur next = false)
      (hfres : cur.fres = next.fres)
      (h : MergeStep dbg ((k, { cur with
        repSize := some (SFrameBuilder.mergedRep cur next), size := cur.size + next.size }) :: rest) out) :
      MergeStep dbg ((k, cur) :: (k', next) :: rest) out

theorem subI32_dbg {dbg : Bool} {a b d : I32} (h : subI32 dbg a b = .ok d) :
    d = a - b ∧ (dbg = true → -2147483648 ≤ a.toInt - b.toInt ∧ a.toInt - b.toInt ≤ 2147483647) := by
  unfold subI32 at h
  split at h
  · cases h
  · rename_i hn
    simp only [Rust.ok.injEq] at h
    refine ⟨h.symm, fun hd => ?_⟩
    simpa [hd] using hn

theorem mergeFdesLoop_spec {dbg : Bool} {opt : SFrameOptions} (fuel : Nat)
    (l r : BMap I32 FuncDescBuilder) (k : I32)
    (cur : FuncDescBuilder) (hs : BMap.Sorted ordI32 (l ++ (k, cur) :: r))
    (hk : ∀ e ∈ (k, cur) :: r, e.1 = e.2.startAddress ∧ e.2.options = opt) (hf : r.length < fuel) :
    (∃ out, SFrameBuilder.mergeFdesLoop dbg fuel (l ++ (k, cur) :: r) k = .ok (l ++ out) ∧
      MergeStep dbg ((k, cur) :: r) out) ∨
    (dbg = true ∧ SFrameBuilder.mergeFdesLoop dbg fuel (l ++ (k, cur) :: r) k = .panic .overflow ∧
      ∃ x ∈ ((k, cur) :: r).map Prod.fst, ∃ y ∈ ((k, cur) :: r).map Prod.fst,
        2147483648 < y.toInt - x.toInt) := by
  induction fuel generalizing l r k cur with
  | zero => omega
  | succ fuel ih =>
    unfold SFrameBuilder.mergeFdesLoop
    rw [BMap.rangeFrom_split hs rfl]
    match r, hk, hs, hf with
    | [], _, _, _ => exact .inl ⟨_, rfl, .done _⟩
    | (k2, next) :: r, hk, hs, hf =>
      obtain ⟨hk1, ho1⟩ := hk (k, cur) (by simp)
      obtain ⟨hk2, ho2⟩ := hk (k2, next) (by simp)
      simp only at hk1 ho1 hk2 ho2
      simp only [List.length_cons] at hf
      have hskip :
          (∃ out, SFrameBuilder.mergeFdesLoop dbg fuel (l ++ (k, cur) :: (k2, next) :: r) k2
              = .ok (l ++ out) ∧ MergeStep dbg ((k, cur) :: (k2, next) :: r) out) ∨
          (dbg = true ∧
            SFrameBuilder.mergeFdesLoop dbg fuel (l ++ (k, cur) :: (k2, next) :: r) k2
              = .panic .overflow ∧
            ∃ x ∈ ((k, cur) :: (k2, next) :: r).map Prod.fst,
              ∃ y ∈ ((k, cur) :: (k2, next) :: r).map Prod.fst, 2147483648 < y.toInt - x.toInt) := by
        rw [show l ++ (k, cur) :: (k2, next) :: r = (l ++ [(k, cur)]) ++ (k2, next) :: r by simp]
        rcases ih (l ++ [(k, cur)]) r k2 next (by simpa using hs)
          (fun e he => hk e (List.mem_cons_of_mem _ he)) (by omega) with h | h
        · obtain ⟨out, h, hm⟩ := h
          exact .inl ⟨(k, cur) :: out, by rw [h]; simp, .skip hm⟩
        · obtain ⟨h1, h2, x, hx, y, hy, hxy⟩ := h
          exact .inr ⟨h1, h2, x, List.mem_cons_of_mem _ hx, y, List.mem_cons_of_mem _ hy, hxy⟩
      simp only [← hk2]
      rw [if_neg (by simp [ho1, ho2])]
      by_cases hkey : cur.pauthKey = next.pauthKey
      case neg => rw [if_pos hkey]; exact hskip
      rw [if_neg (by simpa using hkey)]
      cases hsub : subI32 dbg cur.startAddress k2 with
      | diverge => unfold subI32 at hsub; split at hsub <;> cases hsub
      | panic p =>
        unfold subI32 at hsub
        split at hsub
        · rename_i h
          cases hsub
          right
          simp only [Bool.and_eq_true, Bool.not_eq_true', Bool.and_eq_false_iff,
            decide_eq_false_iff_not] at h
          have hlt := (BMap.split_at hs rfl).2 (k2, next) (by simp)
          simp only [ordI32] at hlt
          rw [← hk1] at h
          refine ⟨h.1, rfl, k, by simp, k2, by simp, ?_⟩
          omega
        · cases hsub
      | ok rel =>
        obtain ⟨hrel, hd⟩ := subI32_dbg hsub
        simp only [Rust.bind_ok]
        by_cases h1 : rel = cur.size
        case neg => rw [if_pos h1]; exact hskip
        rw [if_neg (by simpa using h1)]
        by_cases h2 : 2 ^ 32 ≤ cur.size.toNat + next.size.toNat
        case pos => rw [if_pos h2]; exact hskip
        rw [if_neg h2]
        cases h3 : SFrameBuilder.repMismatch cur next with
        | true => rw [if_pos rfl]; exact hskip
        | false =>
          rw [if_neg (by simp)]
          by_cases h4 : cur.fres = next.fres
          case neg => rw [if_pos h4]; exact hskip
          rw [if_neg (by simpa using h4)]
          have hset : (l ++ (k, cur) :: (k2, next) :: r : BMap I32 FuncDescBuilder).setAt ordI32 k
              { cur with repSize := some (SFrameBuilder.mergedRep cur next),
                         size := cur.size + next.size }
              = l ++ (k, { cur with repSize := some (SFrameBuilder.mergedRep cur next),
                                    size := cur.size + next.size }) :: (k2, next) :: r :=
            BMap.setAt_split hs rfl
          have hs' := BMap.setAt_sorted (k := k) (v := { cur with
            repSize := some (SFrameBuilder.mergedRep cur next), size := cur.size + next.size }) hs
          rw [hset] at hs' ⊢
          have hrem := BMap.remove_split hs' (l := l ++ [(k, { cur with
            repSize := some (SFrameBuilder.mergedRep cur next), size := cur.size + next.size })])
            (k := k2) (v := next) (r := r) (by simp)
          rw [hrem]
          have hs'' := BMap.remove_sorted (k := k2) hs'
          rw [hrem] at hs''
          rw [List.append_assoc] at hs'' ⊢
          simp only [List.cons_append, List.nil_append] at hs'' ⊢
          rcases ih l r k { cur with
            repSize := some (SFrameBuilder.mergedRep cur next), size := cur.size + next.size } hs''
            (fun e he => by
              rcases List.mem_cons.1 he with rfl | he
              · exact ⟨hk1, ho1⟩
              · exact hk e (by simp [he])) (by omega) with h | h
          · obtain ⟨out, h, hm⟩ := h
            left
            refine ⟨out, h, .merge hkey ?_ ?_ (by omega) h3 h4 hm⟩
            · rw [← hk2, ← hrel, h1]
            · intro hdb; rw [← hk2]; exact (hd hdb).1
          · obtain ⟨h1, h2, x, hx, y, hy, hxy⟩ := h
            refine .inr ⟨h1, h2, x, ?_, y, ?_, hxy⟩
            · simp only [List.map_cons, List.mem_cons] at hx ⊢
              rcases hx with hx | hx
              · exact .inl hx
              · exact .inr (.inr hx)
            · simp only [List.map_cons, List.mem_cons] at hy ⊢
              rcases hy with hy | hy
              · exact .inl hy
              · exact .inr (.inr hy)

/-- `merge_adjacent_fdes` in closed form: it terminates, and panics only in debug builds (on
overflow of the address difference). -/
theorem mergeAdjacentFdes_spec {dbg : Bool} {b : SFrameBuilder} (h : BuilderInv b) :
    (∃ out, b.mergeAdjacentFdes dbg = .ok { b with fdes := out } ∧
      (b.fdes = [] ∧ out = [] ∨ MergeStep dbg b.fdes out)) ∨
    (dbg = true ∧ b.mergeAdjacentFdes dbg = .panic .overflow ∧
      ∃ x ∈ b.fdes.map Prod.fst, ∃ y ∈ b.fdes.map Prod.fst, 2147483648 < y.toInt - x.toInt) := by
  unfold SFrameBuilder.mergeAdjacentFdes
  obtain ⟨opt, fdes⟩ := b
  cases fdes with
  | nil => exact .inl ⟨[], rfl, .inl ⟨rfl, rfl⟩⟩
  | cons e r =>
    obtain ⟨k, cur⟩ := e
    simp only [BMap.first, List.head?_cons]
    rcases mergeFdesLoop_spec (dbg := dbg) (opt := opt) (((k, cur) :: r).length + 1) [] r k cur
      (by simpa using h.sorted) (fun e he => ⟨h.key e he, h.options e he⟩) (by simp; omega) with hh | hh
    · obtain ⟨out, hh, hm⟩ := hh
      simp only [List.nil_append] at hh
      exact .inl ⟨out, by rw [hh]; rfl, .inr hm⟩
    · simp only [List.nil_append] at hh
      exact .inr ⟨hh.1, by rw [hh.2.1]; rfl, hh.2.2⟩

/-- The loop changes nothing if no two neighbours satisfy the condition for a merge. -/
theorem mergeFdesLoop_id {dbg : Bool} {opt : SFrameOptions} (fuel : Nat)
    (l r : BMap I32 FuncDescBuilder) (k : I32)
    (cur : FuncDescBuilder) (hs : BMap.Sorted ordI32 (l ++ (k, cur) :: r))
    (hk : ∀ e ∈ (k, cur) :: r, e.1 = e.2.startAddress ∧ e.2.options = opt) (hf : r.length < fuel)
    (hn : ∀ (i : Nat) e e', ((k, cur) :: r)[i]? = some e → ((k, cur) :: r)[i + 1]? = some e' →
      (dbg = true → e'.1.toInt - e.1.toInt ≤ 2147483648) ∧
      e'.1.toInt - e.1.toInt + e.2.size.toNat ≠ 4294967296) :
    SFrameBuilder.mergeFdesLoop dbg fuel (l ++ (k, cur) :: r) k = .ok (l ++ (k, cur) :: r) := by
  induction fuel generalizing l r k cur with
  | zero => omega
  | succ fuel ih =>
    unfold SFrameBuilder.mergeFdesLoop
    rw [BMap.rangeFrom_split hs rfl]
    match r, hk, hs, hf, hn with
    | [], _, _, _, _ => rfl
    | (k2, next) :: r, hk, hs, hf, hn =>
      obtain ⟨hk1, ho1⟩ := hk (k, cur) (by simp)
      obtain ⟨hk2, ho2⟩ := hk (k2, next) (by simp)
      simp only at hk1 ho1 hk2 ho2
      simp only [List.length_cons] at hf
      have hskip : SFrameBuilder.mergeFdesLoop dbg fuel (l ++ (k, cur) :: (k2, next) :: r) k2
              = .ok (l ++ (k, cur) :: (k2, next) :: r) := by
        rw [show l ++ (k, cur) :: (k2, next) :: r = (l ++ [(k, cur)]) ++ (k2, next) :: r by simp]
        exact ih (l ++ [(k, cur)]) r k2 next (by simpa using hs)
          (fun e he => hk e (List.mem_cons_of_mem _ he)) (by omega)
          (fun i e e' h h' => hn (i + 1) e e' h h')
      simp only [← hk2]
      rw [if_neg (by simp [ho1, ho2])]
      by_cases hkey : cur.pauthKey = next.pauthKey
      case neg => rw [if_pos hkey]; exact hskip
      rw [if_neg (by simpa using hkey), ← hk1]
      obtain ⟨hd, hne⟩ := hn 0 (k, cur) (k2, next) rfl rfl
      simp only at hd hne
      have hlt := (BMap.split_at hs rfl).2 (k2, next) (by simp)
      simp only [ordI32] at hlt
      have b1 := BitVec.le_toInt k
      have b2 := BitVec.toInt_lt (x := k)
      have b3 := BitVec.le_toInt k2
      have b4 := BitVec.toInt_lt (x := k2)
      have hsub : subI32 dbg k k2 = .ok (k - k2) := by
        unfold subI32
        rw [if_neg]
        simp only [Bool.and_eq_true, Bool.not_eq_true', Bool.and_eq_false_iff,
            decide_eq_false_iff_not]
        rintro ⟨h1, h2⟩
        have := hd h1
        omega
      rw [hsub, Rust.bind_ok, if_pos]
      · exact hskip
      · intro heq
        apply hne
        have h1 := congrArg BitVec.toNat heq
        rw [BitVec.toNat_sub] at h1
        have h2 := BitVec.toInt_eq_toNat_cond k
        have h3 := BitVec.toInt_eq_toNat_cond k2
        have h4 := k.isLt
        have h5 := k2.isLt
        split at h2 <;> split at h3 <;> omega

theorem mergeAdjacentFdes_id {dbg : Bool} {b : SFrameBuilder} (h : BuilderInv b)
    (hn : ∀ (i : Nat) e e', b.fdes[i]? = some e → b.fdes[i + 1]? = some e' →
      (dbg = true → e'.1.toInt - e.1.toInt ≤ 2147483648) ∧
      e'.1.toInt - e.1.toInt + e.2.size.toNat ≠ 4294967296) :
    b.mergeAdjacentFdes dbg = .ok b := by
  unfold SFrameBuilder.mergeAdjacentFdes
  obtain ⟨opt, fdes⟩ := b
  cases fdes with
  | nil => rfl
  | cons e r =>
    obtain ⟨k, cur⟩ := e
    simp only [BMap.first, List.head?_cons]
    have := mergeFdesLoop_id (dbg := dbg) (opt := opt) (((k, cur) :: r).length + 1) [] r k cur
      (by simpa using h.sorted) (fun e he => ⟨h.key e he, h.options e he⟩) (by simp; omega) hn
    rw [List.nil_append] at this
    rw [this]
    rfl

theorem MergeStep.keys {dbg : Bool} {l out : BMap I32 FuncDescBuilder} (h : MergeStep dbg l out) :
    (out.map Prod.fst).Sublist (l.map Prod.fst) := by
  induction h with
  | done e => simp
  | skip h ih => simpa using ih
  | merge _ _ _ _ _ _ h ih =>
    simp only [List.map_cons] at ih ⊢
    exact ih.trans (List.Sublist.cons_cons _ (List.sublist_cons_self _ _))

theorem MergeStep.inv {dbg : Bool} {opt : SFrameOptions} {l out : BMap I32 FuncDescBuilder}
    (h : MergeStep dbg l out)
    (hl : ∀ e ∈ l, e.1 = e.2.startAddress ∧ e.2.options = opt ∧ FdeInv e.2) :
    ∀ e ∈ out, e.1 = e.2.startAddress ∧ e.2.options = opt ∧ FdeInv e.2 := by
  induction h with
  | done e => exact hl
  | skip h ih =>
    intro x hx
    rcases List.mem_cons.1 hx with rfl | hx
    · exact hl _ (by simp)
    · exact ih (fun e he => hl e (List.mem_cons_of_mem _ he)) x hx
  | @merge k k' cur next rest out _ _ _ _ _ _ h ih =>
    apply ih
    intro e he
    rcases List.mem_cons.1 he with rfl | he
    · obtain ⟨h1, h2, h3⟩ := hl (k, cur) (by simp)
      exact ⟨h1, h2, ⟨h3.1, h3.2, h3.3, h3.4⟩⟩
    · exact hl e (by simp [he])

theorem BuilderInv.mergeAdjacentFdes {dbg : Bool} {b b' : SFrameBuilder} (h : BuilderInv b)
    (hm : b.mergeAdjacentFdes dbg = .ok b') : BuilderInv b' := by
  rcases mergeAdjacentFdes_spec (dbg := dbg) h with ⟨out, he, hs⟩ | ⟨_, he, _⟩
  · rw [he] at hm
    cases hm
    rcases hs with ⟨h1, h2⟩ | hs
    · subst h2
      exact ⟨by simp [BMap.Sorted], by simp, by simp, by simp⟩
    · have hinv := hs.inv (opt := b.options)
        (fun e he => ⟨h.key e he, h.options e he, h.fde e he⟩)
      refine ⟨?_, fun e he => (hinv e he).1, fun e he => (hinv e he).2.1, fun e he => (hinv e he).2.2⟩
      have h1 : (b.fdes.map Prod.fst).Pairwise fun a b => ordI32 a < ordI32 b := by
        rw [List.pairwise_map]; exact h.sorted
      have h2 := List.Pairwise.sublist hs.keys h1
      rw [List.pairwise_map] at h2
      exact h2
  · rw [he] at hm; cases hm

/-! ### All section builders -/

theorem BuilderInv.addFde {b b' : SFrameBuilder} {f : FuncDescBuilder} (h : BuilderInv b)
    (hf : FdeInv f) (hb : b.fde f = .ok b') : BuilderInv b' := by
  unfold SFrameBuilder.fde at hb
  split at hb
  · rename_i hopt
    cases hb
    refine ⟨BMap.insert_sorted h.sorted, ?_, ?_, ?_⟩
    · intro e he
      rcases BMap.mem_insert he with rfl | he
      · rfl
      · exact h.key e he
    · intro e he
      rcases BMap.mem_insert he with rfl | he
      · exact hopt.symm
      · exact h.options e he
    · intro e he
      rcases BMap.mem_insert he with rfl | he
      · exact hf
      · exact h.fde e he
  · cases hb

theorem SFrameBuilder.Reachable.inv {dbg : Bool} {b : SFrameBuilder}
    (h : SFrameBuilder.Reachable dbg b) : BuilderInv b := by
  induction h with
  | new options => exact ⟨by simp [SFrameBuilder.new, BMap.Sorted], by simp [SFrameBuilder.new],
      by simp [SFrameBuilder.new], by simp [SFrameBuilder.new]⟩
  | fde _ hf hb ih => exact ih.addFde hf.inv hb
  | mergeAdjacentFdes _ hm ih => exact ih.mergeAdjacentFdes hm

end Verif
