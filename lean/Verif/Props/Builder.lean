import Verif.Spec.Builder
import Verif.Proofs.WriteInv
/-!
# The builder calls: C24, C25, C34, C35, C37, C38, C39
-/

namespace Verif
open Spec

/-! ### C24 -/

theorem rowError_cases (f : FuncDescBuilder) (r : FrameRowBuilder) : rowError f r =
    if ¬ r.startAddress.toNat < 2 ^ 28 then some .startAddressTooLarge
    else if ¬ (f.repSize.all fun rep => decide (r.startAddress.toNat < rep.toNat)) = true then
      some .startAddressLargerThanRepSize
    else if ¬ r.startAddress.toNat < f.size.toNat then some .startAddressOutsideFde
    else if ¬ (r.offsets.all fun x => fixedAllows f.options.fixedRa x.ra) = true then
      some .unexpectedRaOffset
    else if ¬ (r.offsets.all fun x => fixedAllows f.options.fixedFp x.fp) = true then
      some .unexpectedFpOffset
    else if ¬ ((rows f).all fun r' => decide (r'.startAddress ≠ r.startAddress)) = true then
      some .duplicateRow
    else none := by
  unfold rowError rowRules
  simp only [List.find?]
  by_cases h1 : r.startAddress.toNat < 2 ^ 28
  case neg => simp [h1]
  cases h2 : (f.repSize.all fun rep => decide (r.startAddress.toNat < rep.toNat))
  case false => simp [h1]
  by_cases h3 : r.startAddress.toNat < f.size.toNat
  case neg => simp [h1, h3]
  cases h4 : (r.offsets.all fun x => fixedAllows f.options.fixedRa x.ra)
  case false => simp [h1, h3]
  cases h5 : (r.offsets.all fun x => fixedAllows f.options.fixedFp x.fp)
  case false => simp [h1, h3]
  cases h6 : ((rows f).all fun r' => decide (r'.startAddress ≠ r.startAddress))
  case false => simp [h1, h3]
  simp [h1, h3]

theorem signExtend_eq_iff (y : I32) (x : I8) : y = x.signExtend 32 ↔ x.toInt = y.toInt := by
  rw [← BitVec.toInt_inj, BitVec.toInt_signExtend_of_le (by omega)]
  exact eq_comm

theorem normRa_eq (o : SFrameOptions) (x : FrameRowOffsets) :
    FuncDescBuilder.normRa o x =
      if fixedAllows o.fixedRa x.ra then
        .ok { x with ra := if o.fixedRa.isSome then none else x.ra }
      else .error .unexpectedRaOffset := by
  unfold FuncDescBuilder.normRa fixedAllows
  obtain ⟨cfa, ra, fp⟩ := x
  cases o.fixedRa <;> cases ra <;> simp [signExtend_eq_iff]

theorem normFp_eq (o : SFrameOptions) (x : FrameRowOffsets) :
    FuncDescBuilder.normFp o x =
      if fixedAllows o.fixedFp x.fp then
        .ok { x with fp := if o.fixedFp.isSome then none else x.fp }
      else .error .unexpectedFpOffset := by
  unfold FuncDescBuilder.normFp fixedAllows
  obtain ⟨cfa, ra, fp⟩ := x
  cases o.fixedFp <;> cases fp <;> simp [signExtend_eq_iff]

theorem get_none_iff_rows {f : FuncDescBuilder} (h : FdeInv f) (a : U32) :
    f.fres.get ordU32 a = none ↔ ∀ r ∈ rows f, r.startAddress ≠ a := by
  rw [BMap.get_eq_none_iff]
  simp only [rows, List.mem_map, ne_eq, forall_exists_index, and_imp, forall_apply_eq_imp_iff₂,
    ordU32_inj]
  constructor
  · intro hh e he heq; exact hh e he (by rw [h.key e he, heq])
  · intro hh e he heq; exact hh e he (by rw [← h.key e he, heq])

/-- `row`, read off the list of rules. -/
theorem row_spec {f : FuncDescBuilder} (h : FdeInv f) (r : FrameRowBuilder) :
    f.row r = match rowError f r with
      | some e => .error e
      | none => .ok { f with
          fres := f.fres.insert ordU32 r.startAddress (storedRow f.options r) } := by
  rw [FuncDescBuilder.row_eq, rowError_cases, FuncDescBuilder.checkRow]
  by_cases h1 : r.startAddress.toNat < 2 ^ 28
  case neg => rw [if_pos (show r.startAddress.toNat ≥ 0x10000000 by omega), if_pos h1]
  rw [if_neg (show ¬ r.startAddress.toNat ≥ 0x10000000 by omega), if_neg (show ¬ ¬ _ by simpa using h1)]
  by_cases h2 : (f.repSize.all fun rep => decide (r.startAddress.toNat < rep.toNat)) = true
  case neg =>
    rw [if_pos h2, if_pos (by
      cases hr : f.repSize with
      | none => simp [hr] at h2
      | some rep => rw [hr] at h2; exact ⟨rep, rfl, by simpa using h2⟩)]
  rw [if_neg (show ¬ ¬ (Option.all _ _ = true) by simpa using h2), if_neg (by
    rintro ⟨rep, hr, hge⟩
    rw [hr] at h2
    simp at h2; omega)]
  by_cases h3 : r.startAddress.toNat < f.size.toNat
  case neg => rw [if_pos (show r.startAddress.toNat ≥ f.size.toNat by omega), if_pos h3]
  rw [if_neg (show ¬ r.startAddress.toNat ≥ f.size.toNat by omega),
    if_neg (show ¬ ¬ (r.startAddress.toNat < f.size.toNat) by omega)]
  have hg := get_none_iff_rows h r.startAddress
  have hall : ((rows f).all fun r' => decide (r'.startAddress ≠ r.startAddress)) = true ↔
      f.fres.get ordU32 r.startAddress = none := by
    rw [hg]; simp
  have hget : (f.fres.get ordU32 r.startAddress = none ∧
      ((rows f).all fun r' => decide (r'.startAddress ≠ r.startAddress)) = true) ∨
      ((∃ y, f.fres.get ordU32 r.startAddress = some y) ∧
      ((rows f).all fun r' => decide (r'.startAddress ≠ r.startAddress)) = false) := by
    by_cases hh : f.fres.get ordU32 r.startAddress = none
    · exact .inl ⟨hh, hall.2 hh⟩
    · exact .inr ⟨Option.ne_none_iff_exists'.1 hh, by rw [← Bool.not_eq_true, hall]; exact hh⟩
  obtain ⟨a, off, c, d⟩ := r
  cases off with
  | none =>
    simp only [Option.all_none, not_true, if_false, storedRow, Option.map_none] at hget ⊢
    rcases hget with ⟨e1, e2⟩ | ⟨⟨y, e1⟩, e2⟩
    · simp only [e1, e2, not_true, if_false]
    · simp only [e1, e2, Bool.false_eq_true, not_false_eq_true, if_true]
  | some x =>
    simp only [Option.all_some, normRa_eq, storedRow, Option.map_some] at hget ⊢
    by_cases h4 : fixedAllows f.options.fixedRa x.ra = true
    case neg => simp only [h4, not_false_eq_true, if_true, Bool.false_eq_true, if_false]
    simp only [h4, if_true, normFp_eq, not_true, if_false]
    by_cases h5 : fixedAllows f.options.fixedFp x.fp = true
    case neg => simp only [h5, not_false_eq_true, if_true, Bool.false_eq_true, if_false]
    simp only [h5, if_true, not_true, if_false]
    rcases hget with ⟨e1, e2⟩ | ⟨⟨y, e1⟩, e2⟩
    · simp only [e1, e2, not_true, if_false]
    · simp only [e1, e2, Bool.false_eq_true, not_false_eq_true, if_true]

theorem insert_perm {K V : Type} {ord : K → Int} {k : K} {v : V} {m : BMap K V}
    (h : ∀ e ∈ m, ord e.1 ≠ ord k) : (m.insert ord k v).Perm ((k, v) :: m) := by
  induction m with
  | nil => simp [BMap.insert]
  | cons x m ih =>
    obtain ⟨k', v'⟩ := x
    unfold BMap.insert
    split
    · exact .refl _
    · split
      · rename_i he
        exact absurd he.symm (h (k', v') (by simp))
      · exact ((ih fun e he => h e (List.mem_cons_of_mem _ he)).cons _).trans (.swap _ _ _)

theorem rows_ascending {f : FuncDescBuilder} (h : FdeInv f) : RowsAscending (rows f) := by
  unfold RowsAscending rows
  rw [List.pairwise_map]
  refine List.Pairwise.imp_of_mem ?_ h.sorted
  intro a b ha hb hab
  simp only [ordU32, h.key a ha, h.key b hb] at hab
  omega

/-- **C24.**  `row` refuses with exactly the first violated rule (leaving the builder alone: it
returns no new one), and otherwise adds exactly this row, without the offsets that the header
fixes, at its place in start order, changing nothing else. -/
theorem C24_row (f : FuncDescBuilder) (hf : f.Reachable) (r : FrameRowBuilder) :
    (∀ e, f.row r = .error e ↔ rowError f r = some e) ∧
    (rowError f r = none → ∃ f', f.row r = .ok f' ∧
      (rows f').Perm (storedRow f.options r :: rows f) ∧ RowsAscending (rows f') ∧
      f'.options = f.options ∧ f'.startAddress = f.startAddress ∧ f'.size = f.size ∧
      f'.repSize = f.repSize ∧ f'.pauthKey = f.pauthKey) := by
  have h := hf.inv
  have hs := row_spec h r
  refine ⟨fun e => ?_, fun hn => ?_⟩
  · rw [hs]
    cases rowError f r <;> simp
  · rw [hn] at hs
    refine ⟨_, hs, ?_, rows_ascending (h.row hs), rfl, rfl, rfl, rfl, rfl⟩
    rw [rowError_cases] at hn
    have hno : f.fres.get ordU32 r.startAddress = none := by
      rw [get_none_iff_rows h]
      repeat' split at hn
      all_goals first | contradiction | skip
      rename_i hh
      simpa using hh
    have := (insert_perm (v := storedRow f.options r) (BMap.get_eq_none_iff.1 hno)).map Prod.snd
    exact this

/-- A call that is refused has no effect on the builder. -/
theorem C24_refused (f : FuncDescBuilder) (r : FrameRowBuilder) (e : FrameRowError)
    (h : f.row r = .error e) : f.call (.row r) = .ok f := by
  simp [FuncDescBuilder.call, h]

namespace Samples

/-- Options with a fixed RA offset, as used for amd64. -/
def opts : SFrameOptions :=
  { flags := 1, abiArch := 3, fixedFp := none, fixedRa := some ⟨0xF8, by decide⟩ }

/-- A row with CFA offset 16, RA -8 and FP -16. -/
def row16 : FrameRowBuilder :=
  { startAddress := 4, baseReg := .sp, mangled := false,
    offsets := some { cfa := 16, ra := some 0xFFFFFFF8, fp := some 0xFFFFFFF0 } }

/-- The same as stored: the RA offset dropped. -/
def row16' : FrameRowBuilder :=
  { startAddress := 4, baseReg := .sp, mangled := false,
    offsets := some { cfa := 16, ra := none, fp := some 0xFFFFFFF0 } }

/-- A row with CFA offset 8. -/
def row8 : FrameRowBuilder :=
  { startAddress := 0, baseReg := .sp, mangled := false,
    offsets := some { cfa := 8, ra := none, fp := none } }

/-- A function with one row. -/
def fn1 : FuncDescBuilder :=
  { options := opts, startAddress := 0x1000, size := 0x20, repSize := none, pauthKey := .A,
    fres := [(0, row8)] }

/-- A function with two rows. -/
def fn2 : FuncDescBuilder := { fn1 with fres := [(0, row8), (4, row16')] }

theorem fn1_reachable : fn1.Reachable :=
  .call (.row row8) (.new opts 0x1000 0x20) (by decide +kernel)

theorem fn2_reachable : fn2.Reachable :=
  .call (.row row16) fn1_reachable (by decide +kernel)

end Samples

/-- Accepted with the RA offset dropped; refused for each reason. -/
example : Samples.fn1.row Samples.row16 = .ok Samples.fn2 ∧ rowError Samples.fn1 Samples.row16 = none ∧
    rowError Samples.fn2 Samples.row16 = some .duplicateRow ∧
    rowError Samples.fn1 { Samples.row16 with startAddress := 0x20 } = some .startAddressOutsideFde ∧
    rowError { Samples.fn1 with repSize := some 4 } Samples.row16
      = some .startAddressLargerThanRepSize ∧
    rowError Samples.fn1 { Samples.row16 with startAddress := 0x10000000 }
      = some .startAddressTooLarge ∧
    rowError Samples.fn1 { Samples.row16 with offsets := some { cfa := 16, ra := some 8, fp := none } }
      = some .unexpectedRaOffset := by
  decide +kernel

/-! ### C25 -/

/-- **C25 is false of the code**: with no fixed offsets in the header, a row without RA and FP
offsets is accepted. -/
theorem C25_missing_offsets_accepted :
    ∃ (f f' : FuncDescBuilder) (r : FrameRowBuilder) (x : FrameRowOffsets),
      f.Reachable ∧ f.options.fixedRa = none ∧ f.options.fixedFp = none ∧
      r.offsets = some x ∧ x.ra = none ∧ x.fp = none ∧ f.row r = .ok f' ∧ r ∈ rows f' := by
  refine ⟨FuncDescBuilder.new SFrameOptions.new 0 16,
    { FuncDescBuilder.new SFrameOptions.new 0 16 with fres := [(0, Samples.row8)] }, Samples.row8,
    { cfa := 8, ra := none, fp := none }, .new _ _ _, ?_⟩
  decide +kernel

/-- **C25**, what holds: the two errors are never returned, whatever is missing; the offsets that
are present are checked as C24 says.  Missing: the check that required offsets are present, which
the code does not make. -/
theorem C25_never_missing_partial (f : FuncDescBuilder) (r : FrameRowBuilder) :
    f.row r ≠ .error .missingRaOffset ∧ f.row r ≠ .error .missingFpOffset := by
  rw [FuncDescBuilder.row_eq]
  have hc : ∀ e, f.checkRow r = .error e → e ≠ .missingRaOffset ∧ e ≠ .missingFpOffset := by
    intro e he
    unfold FuncDescBuilder.checkRow at he
    simp only [normRa_eq, normFp_eq] at he
    repeat' split at he
    all_goals (cases he <;> simp_all)
    all_goals (
      rename_i h
      split at h <;> simp_all)
    all_goals (subst h; simp)
  cases hr : f.checkRow r with
  | error e => simpa using hc e hr
  | ok r' =>
    simp only
    split <;> simp

example : ∃ f', Samples.fn1.row { Samples.row8 with startAddress := 8 } = .ok f' :=
  ⟨_, rfl⟩

/-! ### C34 -/

/-- Adding rows one after another, all of which must be accepted. -/
def addRows (f : FuncDescBuilder) (rs : List FrameRowBuilder) : Except FrameRowError FuncDescBuilder :=
  match rs with
  | [] => .ok f
  | r :: rs => match f.row r with
    | .error e => .error e
    | .ok f' => addRows f' rs

/-- Adding functions one after another. -/
def addFdes (b : SFrameBuilder) (fs : List FuncDescBuilder) : Rust SFrameBuilder :=
  match fs with
  | [] => .ok b
  | f :: fs => (b.fde f).bind fun b' => addFdes b' fs

theorem row_ok_iff {f f' : FuncDescBuilder} (h : FdeInv f) {r : FrameRowBuilder} :
    f.row r = .ok f' ↔ rowError f r = none ∧
      f' = { f with fres := f.fres.insert ordU32 r.startAddress (storedRow f.options r) } := by
  rw [row_spec h]
  cases rowError f r <;> simp [eq_comm]

theorem rowError_insert {f : FuncDescBuilder} (h : FdeInv f) {r r' : FrameRowBuilder}
    (hr : rowError f r = none) :
    rowError { f with fres := f.fres.insert ordU32 r.startAddress (storedRow f.options r) } r' = none ↔
      rowError f r' = none ∧ r'.startAddress ≠ r.startAddress := by
  have h' : FdeInv { f with fres := f.fres.insert ordU32 r.startAddress (storedRow f.options r) } :=
    h.row ((row_ok_iff h).2 ⟨hr, rfl⟩)
  have hrows : ((rows { f with
        fres := f.fres.insert ordU32 r.startAddress (storedRow f.options r) }).all fun x => decide (x.startAddress ≠ r'.startAddress)) = true ↔
      ((rows f).all fun x => decide (x.startAddress ≠ r'.startAddress)) = true ∧
        r'.startAddress ≠ r.startAddress := by
    have e1 := get_none_iff_rows h' r'.startAddress
    have e2 := get_none_iff_rows h r'.startAddress
    simp only [List.all_eq_true, decide_eq_true_eq]
    rw [← e1, ← e2, BMap.get_insert h.sorted]
    split
    · rename_i heq
      rw [ordU32_inj] at heq
      simp [heq]
    · rename_i hne
      rw [ordU32_inj] at hne
      simp [hne]
  rw [rowError_cases, rowError_cases]
  by_cases hq : ((rows f).all fun x => decide (x.startAddress ≠ r'.startAddress)) = true ∧
        r'.startAddress ≠ r.startAddress
  · have := hrows.2 hq
    simp only [this, hq.1, hq.2, not_true, if_false, ne_eq, not_false_eq_true, and_true]
  · have hn := mt hrows.1 hq
    simp only [hn]
    constructor
    · intro hh
      repeat' split at hh
      all_goals contradiction
    · rintro ⟨hh, hne⟩
      exfalso
      apply hq
      refine ⟨?_, hne⟩
      repeat' split at hh
      all_goals first | contradiction | skip
      rename_i hx
      exact Classical.not_not.1 hx

theorem addRows_perm {f g : FuncDescBuilder} {rs rs' : List FrameRowBuilder} (hf : FdeInv f)
    (hp : rs.Perm rs') (h : addRows f rs = .ok g) : addRows f rs' = .ok g := by
  induction hp generalizing f with
  | nil => exact h
  | cons r _ ih =>
    unfold addRows at h ⊢
    cases hr : f.row r with
    | error e => rw [hr] at h; cases h
    | ok f' => rw [hr] at h; exact ih (hf.row hr) h
  | trans _ _ ih1 ih2 => exact ih2 hf (ih1 hf h)
  | swap r r' l =>
    simp only [addRows] at h ⊢
    cases hr' : f.row r' with
    | error e => rw [hr'] at h; cases h
    | ok f1 =>
      rw [hr'] at h
      simp only at h
      cases hr : f1.row r with
      | error e => rw [hr] at h; cases h
      | ok f2 =>
        rw [hr] at h
        simp only at h
        have hf1 := hf.row hr'
        obtain ⟨a1, a2⟩ := (row_ok_iff hf).1 hr'
        obtain ⟨b1, b2⟩ := (row_ok_iff hf1).1 hr
        rw [a2] at b1
        obtain ⟨c1, c2⟩ := (rowError_insert hf a1).1 b1
        have e1 : f.row r = .ok { f with
            fres := f.fres.insert ordU32 r.startAddress (storedRow f.options r) } :=
          (row_ok_iff hf).2 ⟨c1, rfl⟩
        have e2 := (row_ok_iff (hf.row e1) (f' := f2) (r := r')).2
          ⟨(rowError_insert hf c1).2 ⟨a1, Ne.symm c2⟩, by
            rw [b2, a2]
            simp only
            rw [BMap.insert_comm injU32 hf.sorted]
            rw [Ne, ordU32_inj]
            exact Ne.symm c2⟩
        rw [e1]
        simp only
        rw [e2]
        exact h

theorem addFdes_perm {b g : SFrameBuilder} {fs fs' : List FuncDescBuilder} (hb : BuilderInv b)
    (hi : ∀ f ∈ fs, FdeInv f) (hd : fs.Pairwise fun f f' => f.startAddress ≠ f'.startAddress)
    (hp : fs.Perm fs') (h : addFdes b fs = .ok g) : addFdes b fs' = .ok g := by
  induction hp generalizing b with
  | nil => exact h
  | cons f _ ih =>
    unfold addFdes at h ⊢
    cases hr : b.fde f with
    | panic e => rw [hr] at h; cases h
    | diverge => rw [hr] at h; cases h
    | ok b' =>
      rw [hr] at h
      exact ih (hb.addFde (hi f (by simp)) hr) (fun x hx => hi x (by simp [hx]))
        (List.pairwise_cons.1 hd).2 h
  | trans p1 _ ih1 ih2 =>
    refine ih2 hb (fun f hf => hi f (p1.mem_iff.2 hf)) ?_ (ih1 hb hi hd h)
    exact (p1.pairwise_iff (fun h => Ne.symm h)).1 hd
  | swap f f' l =>
    simp only [addFdes, SFrameBuilder.fde] at h ⊢
    have hne : f'.startAddress ≠ f.startAddress := (List.pairwise_cons.1 hd).1 f (by simp)
    by_cases h1 : b.options = f.options
    · by_cases h2 : b.options = f'.options
      · simp only [h1] at h ⊢
        simp only [← h1, ← h2, if_true, Rust.bind_ok] at h ⊢
        rw [BMap.insert_comm injI32 hb.sorted (by rw [Ne, ordI32_inj]; exact Ne.symm hne)]
        exact h
      · simp [h2] at h
    · by_cases h2 : b.options = f'.options
      · simp only [h2, if_true, Rust.bind_ok] at h
        rw [← h2, if_neg h1] at h
        cases h
      · simp [h2] at h

/-- **C34**, rows: if rows are accepted in one order, they are accepted in any order, and the
function is the same. -/
theorem C34_rows_any_order (f g : FuncDescBuilder) (hf : f.Reachable)
    (rs rs' : List FrameRowBuilder) (hp : rs.Perm rs') (h : addRows f rs = .ok g) :
    addRows f rs' = .ok g := addRows_perm hf.inv hp h

/-- **C34**, functions: functions with different starts can be added in any order; the bytes built
are the same. -/
theorem C34_functions_any_order (dbg : Bool) (o : Endian) (b g : SFrameBuilder)
    (hb : SFrameBuilder.Reachable dbg b) (fs fs' : List FuncDescBuilder)
    (hr : ∀ f ∈ fs, f.Reachable)
    (hd : fs.Pairwise fun f f' => f.startAddress ≠ f'.startAddress) (hp : fs.Perm fs')
    (h : addFdes b fs = .ok g) :
    ∃ g', addFdes b fs' = .ok g' ∧ g'.build dbg o = g.build dbg o :=
  ⟨g, addFdes_perm hb.inv (fun f hf => (hr f hf).inv) hd hp h, rfl⟩

/-- Two rows, and two functions, in both orders. -/
example : addRows (FuncDescBuilder.new Samples.opts 0x1000 0x20) [Samples.row8, Samples.row16]
      = .ok Samples.fn2 ∧
    addRows (FuncDescBuilder.new Samples.opts 0x1000 0x20) [Samples.row16, Samples.row8]
      = .ok Samples.fn2 ∧
    addFdes (SFrameBuilder.new Samples.opts) [Samples.fn2, { Samples.fn1 with startAddress := 0 }]
      = .ok { options := Samples.opts,
              fdes := [(0, { Samples.fn1 with startAddress := 0 }), (0x1000, Samples.fn2)] } := by
  decide +kernel

/-! ### C35 -/

theorem functions_ascending {b : SFrameBuilder} (h : BuilderInv b) :
    FunctionsAscending (functions b) := by
  unfold FunctionsAscending functions
  rw [List.pairwise_map]
  refine List.Pairwise.imp_of_mem ?_ h.sorted
  intro x y hx hy hxy
  simp only [ordI32, h.key x hx, h.key y hy] at hxy
  exact hxy

theorem insert_perm_filter {K V : Type} {ord : K → Int} {k : K} {v : V} {m : BMap K V}
    (h : m.Sorted ord) :
    (m.insert ord k v).Perm ((k, v) :: m.filter fun e => decide (ord e.1 ≠ ord k)) := by
  induction m with
  | nil => simp [BMap.insert]
  | cons x m ih =>
    obtain ⟨k', v'⟩ := x
    obtain ⟨h1, h2⟩ := List.pairwise_cons.1 h
    unfold BMap.insert
    split
    · rename_i hlt
      rw [List.filter_eq_self.2]
      intro e he
      simp only [decide_eq_true_eq]
      rcases List.mem_cons.1 he with rfl | he
      · simp only; omega
      · have := h1 e he
        simp only at this
        omega
    · split
      · rename_i heq
        rw [List.filter_cons_of_neg (by simp [heq]), List.filter_eq_self.2]
        intro e he
        have := h1 e he
        simp only at this
        simp only [decide_eq_true_eq]
        omega
      · rename_i hne
        rw [List.filter_cons_of_pos (by simp only [decide_eq_true_eq]; omega)]
        exact ((ih h2).cons _).trans (.swap _ _ _)

/-- **C35.**  Adding a function panics exactly if it was made with other options.  Otherwise the
functions are the new one and all old ones that start elsewhere, in start order. -/
theorem C35_fde (dbg : Bool) (b : SFrameBuilder) (hb : SFrameBuilder.Reachable dbg b)
    (f : FuncDescBuilder) :
    (b.options ≠ f.options → b.fde f = .panic .assertion) ∧
    (b.options = f.options → ∃ b', b.fde f = .ok b' ∧ b'.options = b.options ∧
      (functions b').Perm
        (f :: (functions b).filter fun g => decide (g.startAddress ≠ f.startAddress)) ∧
      FunctionsAscending (functions b')) := by
  have h := hb.inv
  refine ⟨fun hne => by simp [SFrameBuilder.fde, hne], fun he => ?_⟩
  refine ⟨{ b with fdes := b.fdes.insert ordI32 f.startAddress f },
    by simp [SFrameBuilder.fde, he], rfl, ?_, ?_⟩
  · have := (insert_perm_filter (k := f.startAddress) (v := f) h.sorted).map Prod.snd
    simp only [List.map_cons] at this
    unfold functions
    rw [List.filter_map]
    have hf : (b.fdes.filter fun e => decide (ordI32 e.1 ≠ ordI32 f.startAddress))
        = b.fdes.filter ((fun g : FuncDescBuilder => decide (g.startAddress ≠ f.startAddress)) ∘ Prod.snd) := by
      apply List.filter_congr
      intro e he
      simp [ordI32_inj, h.key e he]
    rw [← hf]
    exact this
  · have hs : (b.fdes.insert ordI32 f.startAddress f).Sorted ordI32 := BMap.insert_sorted h.sorted
    unfold FunctionsAscending functions
    rw [List.pairwise_map]
    refine List.Pairwise.imp_of_mem ?_ hs
    have hk : ∀ e ∈ b.fdes.insert ordI32 f.startAddress f, e.1 = e.2.startAddress := by
      intro e he
      rcases BMap.mem_insert he with rfl | he
      · rfl
      · exact h.key e he
    intro x y hx hy hxy
    simp only [ordI32, hk x hx, hk y hy] at hxy
    exact hxy

example : (SFrameBuilder.mk Samples.opts [(0, { Samples.fn1 with startAddress := 0 }),
      (0x1000, Samples.fn1)]).fde Samples.fn2
      = .ok ⟨Samples.opts, [(0, { Samples.fn1 with startAddress := 0 }), (0x1000, Samples.fn2)]⟩ ∧
    (SFrameBuilder.new SFrameOptions.new).fde Samples.fn2 = .panic .assertion := by
  decide +kernel

/-! ### C37 -/

/-- A call of a setter of `SFrameOptions`. -/
inductive OptCall
  | framePointer (value : Bool)
  | abi (a : U8)
  | fixedFp (x : Option I8)
  | fixedRa (x : Option I8)

/-- The effect of a setter. -/
def SFrameOptions.call (o : SFrameOptions) : OptCall → SFrameOptions
  | .framePointer v => o.framePointer v
  | .abi a => o.abi a
  | .fixedFp x => o.fixedFpOffset x
  | .fixedRa x => o.fixedRaOffset x

/-- The options a program can have (the fields are private). -/
inductive SFrameOptions.Reachable : SFrameOptions → Prop
  | new : Reachable SFrameOptions.new
  | call {o : SFrameOptions} (c : OptCall) : Reachable o → Reachable (o.call c)

/-- Setters of the same field. -/
def OptCall.sameField : OptCall → OptCall → Bool
  | .framePointer _, .framePointer _ | .abi _, .abi _ | .fixedFp _, .fixedFp _
  | .fixedRa _, .fixedRa _ => true
  | _, _ => false

/-- **C37.**  A fixed offset of 0 means none, any other value is kept; `frame_pointer` sets or
clears bit 1 and no other bit, and no other field; setters of different fields commute, setters of
the same field override; flag bits other than `FRAME_POINTER` are those of `new`: the sorted bit
is always set and no other one ever is. -/
theorem C37_setters :
    (∀ o : SFrameOptions, o.fixedFpOffset (some 0) = o.fixedFpOffset none ∧
      o.fixedRaOffset (some 0) = o.fixedRaOffset none ∧
      (o.fixedFpOffset none).fixedFp = none ∧ (o.fixedRaOffset none).fixedRa = none ∧
      ∀ x : I8, x ≠ 0 →
        (o.fixedFpOffset (some x)).fixedFp.map Subtype.val = some x ∧
        (o.fixedRaOffset (some x)).fixedRa.map Subtype.val = some x) ∧
    (∀ (o : SFrameOptions) (v : Bool) (i : Nat), i < 8 →
      (o.framePointer v).flags.getLsbD i = (if i = 1 then v else o.flags.getLsbD i) ∧
      { o.framePointer v with flags := o.flags } = o) ∧
    (∀ (o : SFrameOptions) (c c' : OptCall), c.sameField c' = false →
      (o.call c).call c' = (o.call c').call c) ∧
    (∀ (o : SFrameOptions) (c c' : OptCall), c.sameField c' = true → (o.call c).call c' = o.call c') ∧
    (∀ o : SFrameOptions, o.Reachable → o.flags = 1#8 ∨ o.flags = 3#8) := by
  refine ⟨fun o => ⟨rfl, rfl, rfl, rfl, fun x hx => ?_⟩, fun o v i hi => ⟨?_, rfl⟩,
    fun o c c' h => ?_, fun o c c' h => ?_, fun o h => ?_⟩
  · have : x ≠ 0#8 := hx
    simp [SFrameOptions.fixedFpOffset, SFrameOptions.fixedRaOffset, NonZeroI8.new, this]
  · have : ∀ (f : U8) (v : Bool) (i : Fin 8),
        (Flags.set f Flags.FRAME_POINTER v).getLsbD i = if i.val = 1 then v else f.getLsbD i := by
      decide +kernel
    exact this o.flags v ⟨i, hi⟩
  · cases c <;> cases c' <;> first | rfl | cases h
  · have hset : ∀ (f : U8) (v w : Bool), Flags.set (Flags.set f Flags.FRAME_POINTER v)
        Flags.FRAME_POINTER w = Flags.set f Flags.FRAME_POINTER w := by decide +kernel
    cases c <;> cases c' <;> first
      | exact absurd h Bool.false_ne_true
      | rfl
      | simp only [SFrameOptions.call, SFrameOptions.framePointer, hset]
  · induction h with
    | new => exact .inl rfl
    | call c _ ih =>
      cases c with
      | framePointer v =>
        simp only [SFrameOptions.call, SFrameOptions.framePointer]
        rcases ih with h | h <;> rw [h] <;> cases v <;> decide
      | abi a => exact ih
      | fixedFp x => exact ih
      | fixedRa x => exact ih

example : ((((SFrameOptions.new.call (.framePointer true)).call (.abi 3)).call (.fixedFp none)).call
    (.fixedRa (some 0xF8))) = { Samples.opts with flags := 3 } := by decide

/-! ### C38, C39 -/

theorem sameRule_iff (r r' : FrameRowBuilder) : SameRule r r' ↔ rule r = rule r' := by
  obtain ⟨a, b, c, d⟩ := r
  obtain ⟨a', b', c', d'⟩ := r'
  have hx : ∀ x y : FrameRowOffsets,
      (x.cfa.toInt, x.ra.map BitVec.toInt, x.fp.map BitVec.toInt) =
        (y.cfa.toInt, y.ra.map BitVec.toInt, y.fp.map BitVec.toInt) ↔ x = y := by
    intro x y
    obtain ⟨x1, x2, x3⟩ := x
    obtain ⟨y1, y2, y3⟩ := y
    have ho : ∀ p q : Option I32, p.map BitVec.toInt = q.map BitVec.toInt ↔ p = q := by
      intro p q
      cases p <;> cases q <;> simp [BitVec.toInt_inj]
    simp only [Prod.mk.injEq, BitVec.toInt_inj, ho, FrameRowOffsets.mk.injEq]
  simp only [SameRule, rule, Prod.mk.injEq, FrameRowBuilder.mk.injEq, true_and]
  have : (b.map fun x => (x.cfa.toInt, x.ra.map BitVec.toInt, x.fp.map BitVec.toInt))
      = (b'.map fun x => (x.cfa.toInt, x.ra.map BitVec.toInt, x.fp.map BitVec.toInt)) ↔ b = b' := by
    cases b <;> cases b' <;> simp only [Option.map_none, Option.map_some, reduceCtorEq,
      Option.some.injEq, hx]
  rw [this]
  constructor
  · rintro ⟨h1, h2, h3⟩; exact ⟨h3, h2, h1⟩
  · rintro ⟨h1, h2, h3⟩; exact ⟨h3, h2, h1⟩

theorem getLast?_cons_getD {α : Type} (a : α) (l : List α) :
    (a :: l).getLast? = some (l.getLast?.getD a) := by
  rw [List.getLast?_cons]

theorem mergeKeep_governing (l : List (U32 × FrameRowBuilder))
    (hs : (l.map Prod.snd).Pairwise fun r r' => r.startAddress.toNat < r'.startAddress.toNat)
    (off : Nat) :
    (governingRow ((mergeKeep l).map Prod.snd) off).map rule
      = (governingRow (l.map Prod.snd) off).map rule := by
  induction l using mergeKeep.induct with
  | case1 => simp [mergeKeep]
  | case2 e => simp [mergeKeep]
  | case3 e e' rest hsame ih =>
    rw [mergeKeep, if_pos hsame]
    simp only [List.map_cons, List.pairwise_cons] at hs ih
    obtain ⟨h1, h2, h3⟩ := hs
    rw [ih ⟨fun r hr => h1 r (List.mem_cons_of_mem _ hr), h3⟩]
    have hlt := h1 e'.2 (by simp)
    have hrule := (sameRule_iff _ _).1 hsame
    simp only [governingRow, List.map_cons]
    by_cases hp : e'.2.startAddress.toNat ≤ off
    · rw [List.filter_cons_of_pos (by simp; omega), List.filter_cons_of_pos (by simp; omega),
        List.filter_cons_of_pos (by simp; omega), getLast?_cons_getD, getLast?_cons_getD,
        getLast?_cons_getD]
      cases (List.filter _ _ : List FrameRowBuilder).getLast? <;> simp [hrule]
    · by_cases hq : e.2.startAddress.toNat ≤ off
      · rw [List.filter_cons_of_pos (by simp; omega), List.filter_cons_of_pos (by simp; omega),
          List.filter_cons_of_neg (by simp; omega)]
      · rw [List.filter_cons_of_neg (by simp; omega), List.filter_cons_of_neg (by simp; omega),
          List.filter_cons_of_neg (by simp; omega)]
  | case4 e e' rest hsame ih =>
    rw [mergeKeep, if_neg hsame]
    rw [List.map_cons, List.pairwise_cons] at hs
    have := ih hs.2
    simp only [governingRow, List.map_cons] at this ⊢
    by_cases hq : e.2.startAddress.toNat ≤ off
    · rw [List.filter_cons_of_pos (by simp; omega), List.filter_cons_of_pos (by simp; omega),
        getLast?_cons_getD, getLast?_cons_getD]
      simp only [Option.map_some, Option.some.injEq]
      cases h1 : (List.filter (fun r => decide (r.startAddress.toNat ≤ off))
          (List.map Prod.snd (mergeKeep (e' :: rest)))).getLast? <;>
        cases h2 : (List.filter (fun r => decide (r.startAddress.toNat ≤ off))
          (e'.2 :: List.map Prod.snd rest)).getLast? <;>
        rw [h1, h2] at this <;> simp_all
    · rw [List.filter_cons_of_neg (by simp; omega), List.filter_cons_of_neg (by simp; omega)]
      exact this

/-- **C38.**  After `merge_adjacent_fres` the row governing any offset says the same as before, and
there is one exactly if there was one before. -/
theorem C38_merge_preserves (f : FuncDescBuilder) (hf : f.Reachable) :
    ∃ f', f.mergeAdjacentFres = .ok f' ∧
      ∀ off, (governingRow (rows f') off).map rule = (governingRow (rows f) off).map rule := by
  refine ⟨_, mergeAdjacentFres_eq hf.inv, fun off => ?_⟩
  exact mergeKeep_governing _ (rows_ascending hf.inv) off

theorem mergeKeep_noRepeat (l : List (U32 × FrameRowBuilder)) (i : Nat)
    (a b : U32 × FrameRowBuilder) (ha : (mergeKeep l)[i]? = some a)
    (hb : (mergeKeep l)[i + 1]? = some b) : ¬ SameRule a.2 b.2 := by
  induction l using mergeKeep.induct generalizing i with
  | case1 => simp [mergeKeep] at ha
  | case2 e => simp [mergeKeep] at hb
  | case3 e e' rest hsame ih =>
    rw [mergeKeep, if_pos hsame] at ha hb
    exact ih i ha hb
  | case4 e e' rest hsame ih =>
    rw [mergeKeep, if_neg hsame] at ha hb
    cases i with
    | zero =>
      simp only [List.getElem?_cons_zero, Option.some.injEq, List.getElem?_cons_succ] at ha hb
      subst ha
      have := mergeKeep_head e' rest
      rw [List.head?_eq_getElem?, hb] at this
      cases this
      exact hsame
    | succ i =>
      rw [List.getElem?_cons_succ] at ha hb
      exact ih i ha hb

theorem mergeKeep_id (l : List (U32 × FrameRowBuilder))
    (h : ∀ (i : Nat) a b, l[i]? = some a → l[i + 1]? = some b → ¬ SameRule a.2 b.2) :
    mergeKeep l = l := by
  induction l with
  | nil => simp [mergeKeep]
  | cons e l ih =>
    cases l with
    | nil => simp [mergeKeep]
    | cons e' rest =>
      rw [mergeKeep, if_neg (h 0 e e' rfl rfl)]
      rw [ih fun i a b ha hb => h (i + 1) a b ha hb]

/-- **C39.**  `merge_adjacent_fres` terminates, only removes rows, never the first one, changes
nothing else, leaves no two neighbouring rows that say the same, and a second call changes
nothing. -/
theorem C39_merge_complete (f : FuncDescBuilder) (hf : f.Reachable) :
    ∃ f', f.mergeAdjacentFres = .ok f' ∧
      (rows f').Sublist (rows f) ∧ (rows f').head? = (rows f).head? ∧
      { f' with fres := f.fres } = f ∧
      (∀ (i : Nat) r r', (rows f')[i]? = some r → (rows f')[i + 1]? = some r' → rule r ≠ rule r') ∧
      f'.mergeAdjacentFres = .ok f' := by
  have h := hf.inv
  refine ⟨_, mergeAdjacentFres_eq h, (mergeKeep_sublist _).map _, ?_, rfl, ?_, ?_⟩
  · simp only [rows, List.head?_map]
    cases f.fres with
    | nil => simp [mergeKeep]
    | cons e l => rw [mergeKeep_head]; rfl
  · intro i r r' hr hr' heq
    simp only [rows, List.getElem?_map, Option.map_eq_some_iff] at hr hr'
    obtain ⟨a, ha, rfl⟩ := hr
    obtain ⟨b, hb, rfl⟩ := hr'
    exact mergeKeep_noRepeat _ i a b ha hb ((sameRule_iff _ _).2 heq)
  · rw [mergeAdjacentFres_eq (h.mergeAdjacentFres (mergeAdjacentFres_eq h))]
    simp only [mergeKeep_id _ fun i a b ha hb => mergeKeep_noRepeat _ i a b ha hb]

/-- Three equal rows, then a different one, then the first again: two rows go. -/
example : FuncDescBuilder.mergeAdjacentFres { Samples.fn1 with fres := [(0, Samples.row8),
      (1, { Samples.row8 with startAddress := 1 }), (2, { Samples.row8 with startAddress := 2 }),
      (4, Samples.row16'), (8, { Samples.row8 with startAddress := 8 })] }
    = .ok { Samples.fn1 with fres := [(0, Samples.row8), (4, Samples.row16'),
      (8, { Samples.row8 with startAddress := 8 })] } := by decide +kernel

end Verif
