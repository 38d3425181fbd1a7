import Verif.Props.Merge
import Verif.Spec.Convert
/-!
# The converter in closed form
-/

namespace Verif
open Spec

/-! ### Numbers -/

theorem subU64_cases (dbg : Bool) (a b : U64) :
    (subU64 dbg a b = .panic .overflow ∧ dbg = true ∧ a.toNat < b.toNat) ∨
    (subU64 dbg a b = .ok (a - b) ∧ ¬ (dbg = true ∧ a.toNat < b.toNat)) := by
  unfold subU64
  by_cases h : dbg = true ∧ a.toNat < b.toNat
  · exact .inl ⟨by rw [if_pos (by simp [h])], h⟩
  · exact .inr ⟨by rw [if_neg (by simpa using h)], h⟩

theorem sub_toNat_of_le {a b : U64} (h : b.toNat ≤ a.toNat) : (a - b).toNat = a.toNat - b.toNat := by
  rw [BitVec.toNat_sub]
  have := a.isLt
  have := b.isLt
  omega

theorem sub_toNat_of_lt {a b : U64} (h : a.toNat < b.toNat) :
    (a - b).toNat = 2 ^ 64 + a.toNat - b.toNat := by
  rw [BitVec.toNat_sub]
  have := a.isLt
  have := b.isLt
  omega

theorem i32TryFromI64_eq (x : I64) :
    i32TryFromI64 x = if Fits32 x.toInt then some (BitVec.ofInt 32 x.toInt) else none := by
  unfold i32TryFromI64
  by_cases h : Fits32 x.toInt
  · have h' : -2147483648 ≤ x.toInt ∧ x.toInt ≤ 2147483647 := h
    rw [if_pos h', if_pos h]
    congr 1
    rw [← BitVec.toInt_inj, BitVec.toInt_setWidth, BitVec.toInt_ofInt]
    have := BitVec.toInt_eq_toNat_bmod x
    rw [this]
    rw [Int.bmod_bmod_of_dvd (by decide)]
  · have h' : ¬ (-2147483648 ≤ x.toInt ∧ x.toInt ≤ 2147483647) := h
    rw [if_neg h', if_neg h]

/-! ### One row -/

/-- The three possible results of `rowStart`. -/
theorem rowStart_cases (dbg : Bool) (fde : DwFde) (row : DwRow) (hi : fde.initial.toNat ≤ i32Max) :
    (rowStart dbg fde row = .panic .overflow ∧ dbg = true ∧ ¬ Near fde row) ∨
    (rowStart dbg fde row = .ok (.error (.invalidRowOffset row.start (row.start - fde.initial))) ∧
      ¬ Near fde row ∧ ¬ (dbg = true ∧ row.start.toNat < fde.initial.toNat)) ∨
    (rowStart dbg fde row = .ok (.ok (BitVec.ofNat 32 (row.start.toNat - fde.initial.toNat))) ∧
      Near fde row) := by
  unfold rowStart
  unfold i32Max at hi
  rcases subU64_cases dbg row.start fde.initial with ⟨h, h1, h2⟩ | ⟨h, h1⟩
  · exact .inl ⟨by rw [h]; rfl, h1, fun hn => by unfold Near at hn; omega⟩
  · right
    rw [h]
    simp only [Rust.bind_ok, u32TryFromU64]
    by_cases hle : fde.initial.toNat ≤ row.start.toNat
    · have hs := sub_toNat_of_le hle
      by_cases hlt : row.start.toNat - fde.initial.toNat < 2147483647
      · right
        refine ⟨?_, hle, hlt⟩
        rw [if_pos (by omega)]
        have hw : BitVec.setWidth 32 (row.start - fde.initial)
            = BitVec.ofNat 32 (row.start.toNat - fde.initial.toNat) := by
          rw [← BitVec.toNat_inj, BitVec.toNat_setWidth, BitVec.toNat_ofNat, hs]
        simp only [hw]
        rw [if_pos]
        rw [BitVec.toNat_ofNat]
        unfold i32Max
        omega
      · left
        refine ⟨?_, fun hn => hlt hn.2, h1⟩
        by_cases hb : (row.start - fde.initial).toNat < 2 ^ 32
        · rw [if_pos hb]
          simp only
          rw [if_neg]
          rw [BitVec.toNat_setWidth]
          unfold i32Max
          omega
        · rw [if_neg hb]
    · left
      refine ⟨?_, fun hn => hle hn.1, h1⟩
      have hs := sub_toNat_of_lt (Nat.lt_of_not_le hle)
      have := fde.initial.isLt
      rw [if_neg (by omega)]

/-- The result of `warnErr` for a row that starts inside its function. -/
theorem warnErr_near {α : Type} (dbg : Bool) (opts : Options) (fde : DwFde) (row : DwRow)
    (msg : WarnMsg) (hn : Near fde row) :
    warnErr (α := α) dbg opts fde row msg =
      if !opts.warnings then .ok (.error (.warning none))
      else if fde.len = 0#64 then .panic .ilog2
      else .ok (.error (.warning (some { start := fde.initial, offset := row.start - fde.initial, digits := (fde.len.toNat.log2 + 3) / 4 + 2, msg := msg }))) := by
  unfold warnErr warn
  rcases subU64_cases dbg row.start fde.initial with ⟨_, _, h2⟩ | ⟨h, _⟩
  · have := hn.1; omega
  · rw [h]
    cases opts.warnings
    · rfl
    · simp only [Bool.not_true, Bool.false_eq_true, if_false, Rust.bind_ok]
      split <;> rfl

theorem fp_ofNat (a : Architecture) : BitVec.ofNat 16 (fpNum a) = a.fp := by cases a <;> rfl
theorem ra_ofNat (a : Architecture) : BitVec.ofNat 16 (raNum a) = a.ra := by cases a <;> rfl
theorem reg_sp_iff (a : Architecture) (r : Reg) : r.toNat = spNum a ↔ r = a.sp := by
  rw [← BitVec.toNat_inj]; cases a <;> exact Iff.rfl
theorem reg_fp_iff (a : Architecture) (r : Reg) : r.toNat = fpNum a ↔ r = a.fp := by
  rw [← BitVec.toNat_inj]; cases a <;> exact Iff.rfl

theorem cfaOf_spec (dbg : Bool) (opts : Options) (fde : DwFde) (row : DwRow) :
    (∃ base off, cfaOf dbg opts fde row = .ok (.ok (base, off)) ∧
      cfaRules opts.arch row = (if Fits32 off.toInt then some (base, off.toInt) else none) ∧
      cfaComplaint opts.arch row = if Fits32 off.toInt then none else some (.cfaOffset off)) ∨
    (∃ msg, cfaRules opts.arch row = none ∧ cfaComplaint opts.arch row = some msg ∧
      cfaOf dbg opts fde row = warnErr dbg opts fde row msg) := by
  unfold cfaOf cfaRules cfaComplaint
  cases row.cfa with
  | expression e => exact .inr ⟨_, rfl, rfl, rfl⟩
  | registerAndOffset reg off =>
    simp only
    by_cases h1 : reg = opts.arch.sp
    · left
      have hs := (reg_sp_iff opts.arch reg).2 h1
      have hA : ¬ (reg.toNat ≠ spNum opts.arch ∧ reg.toNat ≠ fpNum opts.arch) := fun h => h.1 hs
      rw [if_pos h1, if_pos hs, if_neg hA]
      refine ⟨_, _, rfl, ?_⟩
      by_cases hf : Fits32 off.toInt <;> simp [hf]
    · have hs := mt (reg_sp_iff opts.arch reg).1 h1
      rw [if_neg h1, if_neg hs]
      by_cases h2 : reg = opts.arch.fp
      · left
        have hp := (reg_fp_iff opts.arch reg).2 h2
        have hA : ¬ (reg.toNat ≠ spNum opts.arch ∧ reg.toNat ≠ fpNum opts.arch) := fun h => h.2 hp
        rw [if_pos h2, if_pos hp, if_neg hA]
        refine ⟨_, _, rfl, ?_⟩
        by_cases hf : Fits32 off.toInt <;> simp [hf]
      · right
        have hp := mt (reg_fp_iff opts.arch reg).1 h2
        have hA : reg.toNat ≠ spNum opts.arch ∧ reg.toNat ≠ fpNum opts.arch := ⟨hs, hp⟩
        rw [if_neg h2, if_neg hp, if_pos hA]
        exact ⟨_, by split <;> rfl, rfl, rfl⟩

theorem fpOf_spec (dbg : Bool) (opts : Options) (fde : DwFde) (row : DwRow) :
    (∃ t, fpRules opts.arch row = some t ∧ fpComplaint opts.arch row = none ∧
      fpOf dbg opts fde row = .ok (.ok (t.map (BitVec.ofInt 32)))) ∨
    (∃ msg, fpRules opts.arch row = none ∧ fpComplaint opts.arch row = some msg ∧
      fpOf dbg opts fde row = warnErr dbg opts fde row msg) := by
  unfold fpOf fpRules fpComplaint
  rw [fp_ofNat]
  cases row.register opts.arch.fp with
  | offset off =>
    simp only
    rw [i32TryFromI64_eq]
    by_cases hf : Fits32 off.toInt
    · rw [if_pos hf, if_pos hf, if_pos hf]; exact .inl ⟨_, rfl, rfl, rfl⟩
    · rw [if_neg hf, if_neg hf, if_neg hf]; exact .inr ⟨_, rfl, rfl, rfl⟩
  | sameValue => exact .inl ⟨_, rfl, rfl, rfl⟩
  | undefined => exact .inl ⟨_, rfl, rfl, rfl⟩
  | _ => exact .inr ⟨_, rfl, rfl, rfl⟩

theorem raOf_spec (dbg : Bool) (opts : Options) (fde : DwFde) (row : DwRow) :
    (∃ t, raRules opts.arch row = some t ∧ raComplaint opts.arch row = none ∧
      raOf dbg opts fde row = .ok (.ok (BitVec.ofInt 32 t))) ∨
    (∃ msg, raRules opts.arch row = none ∧ raComplaint opts.arch row = some msg ∧
      raOf dbg opts fde row = warnErr dbg opts fde row msg) := by
  unfold raOf raRules raComplaint
  rw [ra_ofNat]
  cases row.register opts.arch.ra with
  | offset off =>
    simp only
    rw [i32TryFromI64_eq]
    by_cases hf : Fits32 off.toInt
    · rw [if_pos hf, if_pos hf, if_pos hf]; exact .inl ⟨_, rfl, rfl, rfl⟩
    · rw [if_neg hf, if_neg hf, if_neg hf]; exact .inr ⟨_, rfl, rfl, rfl⟩
  | _ => exact .inr ⟨_, rfl, rfl, rfl⟩

theorem warnErr_bind {α β : Type} (dbg : Bool) (opts : Options) (fde : DwFde) (row : DwRow)
    (msg : WarnMsg) (f : Except RowError α → Rust (Except RowError β))
    (hf : ∀ e, f (.error e) = .ok (.error e)) :
    (warnErr (α := α) dbg opts fde row msg).bind f = warnErr dbg opts fde row msg := by
  unfold warnErr
  cases warn dbg opts fde row msg with
  | ok e => simp [hf]
  | panic p => rfl
  | diverge => rfl

/-- `convert_row`: the translation of the row, or a warning. -/
theorem convertRow_spec (dbg : Bool) (opts : Options) (fde : DwFde) (row : DwRow)
    (hs : rowStart dbg fde row = .ok (.ok (BitVec.ofNat 32 (row.start.toNat - fde.initial.toNat)))) :
    ((translate opts.arch row).isSome ∧ complaint opts.arch row = none ∧
      convertRow dbg opts fde row = .ok (.ok (rowOf opts.arch fde row))) ∨
    (∃ msg, translate opts.arch row = none ∧ complaint opts.arch row = some msg ∧
      convertRow dbg opts fde row = warnErr dbg opts fde row msg) := by
  unfold convertRow complaint
  rcases cfaOf_spec dbg opts fde row with ⟨base, off, h1, h2, h2'⟩ | ⟨msg, h1, h1', h2⟩
  case inr =>
    right
    refine ⟨msg, by unfold translate; rw [h1]; rfl, by rw [h1']; rfl, ?_⟩
    rw [h2]
    exact warnErr_bind _ _ _ _ _ _ fun _ => rfl
  rw [h1, Rust.bind_ok]
  simp only
  rw [hs, Rust.bind_ok]
  simp only
  rw [i32TryFromI64_eq]
  by_cases hf : Fits32 off.toInt
  case neg =>
    right
    rw [if_neg hf] at h2 h2' ⊢
    exact ⟨_, by unfold translate; rw [h2]; rfl, by rw [h2']; rfl, rfl⟩
  rw [if_pos hf] at h2 h2' ⊢
  simp only
  rcases fpOf_spec dbg opts fde row with ⟨fp, h3, h3', h4⟩ | ⟨msg, h3, h3', h4⟩
  case inr =>
    right
    refine ⟨msg, by unfold translate; rw [h2, h3]; rfl, by rw [h2', h3']; rfl, ?_⟩
    rw [h4]
    exact warnErr_bind _ _ _ _ _ _ fun _ => rfl
  rw [h4, Rust.bind_ok]
  simp only
  rcases raOf_spec dbg opts fde row with ⟨ra, h5, h5', h6⟩ | ⟨msg, h5, h5', h6⟩
  case inr =>
    right
    refine ⟨msg, by unfold translate; rw [h2, h3, h5]; rfl, by rw [h2', h3', h5']; rfl, ?_⟩
    rw [h6]
    exact warnErr_bind _ _ _ _ _ _ fun _ => rfl
  left
  rw [h6]
  have ht : translate opts.arch row = some { base := base, cfa := off.toInt, fp := fp, ra := ra } := by
    unfold translate; rw [h2, h3, h5]; rfl
  refine ⟨by rw [ht]; rfl, by rw [h2', h3', h5']; rfl, ?_⟩
  unfold rowOf
  rw [ht]
  rfl

theorem rowOf_none {arch : Architecture} {fde : DwFde} {row : DwRow} (h : translate arch row = none) :
    rowOf arch fde row
      = FrameRowBuilder.invalid (BitVec.ofNat 32 (row.start.toNat - fde.initial.toNat)) := by
  unfold rowOf
  rw [h]
  rfl

theorem row_start_lt {f f' : FuncDescBuilder} {r : FrameRowBuilder} (h : f.row r = .ok f') :
    r.startAddress.toNat < f.size.toNat := by
  rw [FuncDescBuilder.row_eq] at h
  split at h
  · cases h
  · rename_i r' hc
    exact (checkRow_ok hc).2.2.2.2.1

theorem convertRows_cons (dbg : Bool) (opts : Options) (fde : DwFde) (row : DwRow)
    (rows : List (Except GErr DwRow)) (sfde : FuncDescBuilder) (log : List Warning) :
    convertRows dbg opts fde (.ok row :: rows) sfde log =
      if row.start = row.end_ then convertRows dbg opts fde rows sfde log
      else
        (rowStart dbg fde row).bind fun
        | .error e => .ok (.error e)
        | .ok start =>
          (convertRow dbg opts fde row).bind fun
          | .ok fre =>
            match sfde.row fre with
            | .error _ => .panic .explicit
            | .ok sfde => convertRows dbg opts fde rows sfde log
          | .error (.warning w) =>
            match sfde.row (FrameRowBuilder.invalid start) with
            | .error _ => .panic .explicit
            | .ok sfde => convertRows dbg opts fde rows sfde (log ++ w.toList)
          | .error (.fatal e) => .ok (.error e) := by
  conv => lhs; rw [convertRows]
  split
  · rfl
  · congr 1
    funext r
    cases r with
    | error e => rfl
    | ok start =>
      simp only
      congr 1
      funext r
      rcases r with (e | w) | fre
      · rfl
      · rfl
      · rfl

/-- The warning for a row, if there is one. -/
def warningFor (opts : Options) (fde : DwFde) (row : DwRow) : List Warning :=
  if opts.warnings then
    ((complaint opts.arch row).map fun msg =>
      { start := fde.initial, offset := row.start - fde.initial, digits := (fde.len.toNat.log2 + 3) / 4 + 2, msg := msg }).toList
  else []

/-- One step of the loop over the rows. -/
theorem convertRows_step (dbg : Bool) (opts : Options) (fde : DwFde) (row : DwRow)
    (rows : List (Except GErr DwRow)) (sfde : FuncDescBuilder) (log : List Warning)
    (hz : row.start ≠ row.end_) (hn : Near fde row)
    (hs : rowStart dbg fde row = .ok (.ok (BitVec.ofNat 32 (row.start.toNat - fde.initial.toNat))))
    (hsize : sfde.size = fde.len.setWidth 32) :
    ((∃ e, sfde.row (rowOf opts.arch fde row) = .error e) ∧
      (convertRows dbg opts fde (.ok row :: rows) sfde log).Panics) ∨
    (∃ sfde', sfde.row (rowOf opts.arch fde row) = .ok sfde' ∧
      convertRows dbg opts fde (.ok row :: rows) sfde log
        = convertRows dbg opts fde rows sfde' (log ++ warningFor opts fde row)) := by
  rw [convertRows_cons, if_neg hz, hs, Rust.bind_ok]
  simp only
  rcases convertRow_spec dbg opts fde row hs with ⟨_, hc, h⟩ | ⟨msg, ht, hc, h⟩
  · rw [h, Rust.bind_ok]
    simp only
    cases hr : sfde.row (rowOf opts.arch fde row) with
    | error e => exact .inl ⟨⟨e, rfl⟩, _, rfl⟩
    | ok sfde' => exact .inr ⟨sfde', rfl, by simp [warningFor, hc]⟩
  · rw [h, warnErr_near dbg opts fde row msg hn]
    have key : ∀ w : Option Warning, w.toList = warningFor opts fde row →
        ((∃ e, sfde.row (rowOf opts.arch fde row) = .error e) ∧
          (match sfde.row (FrameRowBuilder.invalid (BitVec.ofNat 32 (row.start.toNat - fde.initial.toNat))) with
            | .error _ => Rust.panic .explicit
            | .ok sfde => convertRows dbg opts fde rows sfde (log ++ w.toList)).Panics) ∨
        (∃ sfde', sfde.row (rowOf opts.arch fde row) = .ok sfde' ∧
          (match sfde.row (FrameRowBuilder.invalid (BitVec.ofNat 32 (row.start.toNat - fde.initial.toNat))) with
            | .error _ => Rust.panic .explicit
            | .ok sfde => convertRows dbg opts fde rows sfde (log ++ w.toList))
            = convertRows dbg opts fde rows sfde' (log ++ warningFor opts fde row)) := by
      intro w hw
      rw [rowOf_none ht, hw]
      cases hr : sfde.row
          (FrameRowBuilder.invalid (BitVec.ofNat 32 (row.start.toNat - fde.initial.toNat))) with
      | error e => exact .inl ⟨⟨e, rfl⟩, _, rfl⟩
      | ok sfde' => exact .inr ⟨sfde', rfl, rfl⟩
    by_cases hw : (!opts.warnings) = true
    · rw [if_pos hw, Rust.bind_ok]
      have hw' : opts.warnings = false := by simpa using hw
      exact key none (by simp [warningFor, hw'])
    · rw [if_neg hw]
      have hw' : opts.warnings = true := by simpa using hw
      by_cases hl : fde.len = 0#64
      · left
        rw [if_pos hl]
        refine ⟨?_, _, rfl⟩
        cases hr : sfde.row (rowOf opts.arch fde row) with
        | error e => exact ⟨e, rfl⟩
        | ok sfde' =>
          have := row_start_lt hr
          rw [hsize, hl] at this
          simp at this
      · rw [if_neg hl, Rust.bind_ok]
        exact key (some _) (by simp [warningFor, hw', hc])

/-! ### All rows -/

/-- The function with the given rows. -/
def built (so : SFrameOptions) (arch : Architecture) (fde : DwFde) (rs : List DwRow) :
    FuncDescBuilder :=
  { FuncDescBuilder.new so (fde.initial.setWidth 32) (fde.len.setWidth 32) with
    fres := (live rs).foldl
      (fun m r => m.insert ordU32 (rowOf arch fde r).startAddress (storedRow so (rowOf arch fde r))) [] }

theorem live_append (rs rs' : List DwRow) : live (rs ++ rs') = live rs ++ live rs' :=
  List.filter_append ..

theorem live_single {r : DwRow} (h : r.start ≠ r.end_) : live [r] = [r] := by simp [live, h]

theorem live_dead {r : DwRow} (h : r.start = r.end_) : live [r] = [] := by simp [live, h]

theorem built_dead {so arch fde rs} {r : DwRow} (h : r.start = r.end_) :
    built so arch fde (rs ++ [r]) = built so arch fde rs := by
  unfold built
  rw [live_append, live_dead h, List.append_nil]

theorem clean_dead {so arch fde rs} {r : DwRow} (h : r.start = r.end_) :
    Clean so arch fde (rs ++ [r]) ↔ Clean so arch fde rs := by
  have hl : live (rs ++ [r]) = live rs := by rw [live_append, live_dead h, List.append_nil]
  constructor
  · rintro ⟨h1, h2⟩
    rw [hl] at h1 h2
    exact ⟨h1, h2⟩
  · rintro ⟨h1, h2⟩
    constructor
    · rw [hl]; exact h1
    · rw [hl]; exact h2

theorem clean_live {so arch fde rs} {r : DwRow} (h : r.start ≠ r.end_) :
    Clean so arch fde (rs ++ [r]) ↔
      Clean so arch fde rs ∧ Placed so arch fde r ∧ ∀ r' ∈ live rs, r'.start ≠ r.start := by
  constructor
  · rintro ⟨h1, h2⟩
    rw [live_append, live_single h] at h1 h2
    rw [List.pairwise_append] at h2
    exact ⟨⟨fun x hx => h1 x (List.mem_append_left _ hx), h2.1⟩, h1 r (by simp),
      fun x hx => h2.2.2 x hx r (by simp)⟩
  · rintro ⟨⟨h1, h2⟩, h3, h4⟩
    constructor
    · rw [live_append, live_single h]
      intro x hx
      rcases List.mem_append.1 hx with hx | hx
      · exact h1 x hx
      · rw [List.mem_singleton.1 hx]; exact h3
    · rw [live_append, live_single h, List.pairwise_append]
      exact ⟨h2, by simp, fun x hx y hy => by rw [List.mem_singleton.1 hy]; exact h4 x hx⟩

theorem cfaRules_fits {arch row c} (h : cfaRules arch row = some c) : Fits32 c.2 := by
  unfold cfaRules at h
  split at h
  · cases h
  · split at h
    · cases h
    · rename_i hf
      have hf := Classical.not_not.1 hf
      split at h
      · cases h; exact hf
      · split at h
        · cases h; exact hf
        · cases h

theorem fpRules_fits {arch : Architecture} {row : DwRow} {v : Int}
    (h : fpRules arch row = some (some v)) : Fits32 v := by
  unfold fpRules at h
  cases hr : row.register (BitVec.ofNat 16 (fpNum arch)) with
  | offset off =>
    rw [hr] at h
    simp only at h
    by_cases hf : Fits32 off.toInt
    · rw [if_pos hf] at h
      simp only [Option.some.injEq] at h
      rw [← h]
      exact hf
    · rw [if_neg hf] at h
      cases h
  | _ => rw [hr] at h; simp at h

theorem raRules_fits {arch row v} (h : raRules arch row = some v) : Fits32 v := by
  unfold raRules at h
  split at h
  · split at h
    · rename_i hf; cases h; exact hf
    · cases h
  all_goals cases h

theorem translate_some {arch row t} (h : translate arch row = some t) :
    cfaRules arch row = some (t.base, t.cfa) ∧ fpRules arch row = some t.fp ∧
      raRules arch row = some t.ra := by
  unfold translate at h
  cases h1 : cfaRules arch row with
  | none => rw [h1] at h; cases h
  | some c =>
    cases h2 : fpRules arch row with
    | none => rw [h1, h2] at h; cases h
    | some fp =>
      cases h3 : raRules arch row with
      | none => rw [h1, h2, h3] at h; cases h
      | some ra =>
        rw [h1, h2, h3] at h
        cases h
        exact ⟨rfl, rfl, rfl⟩

theorem translate_fits {arch row t} (h : translate arch row = some t) :
    Fits32 t.cfa ∧ Fits32 t.ra ∧ ∀ v, t.fp = some v → Fits32 v := by
  obtain ⟨h1, h2, h3⟩ := translate_some h
  exact ⟨cfaRules_fits h1, raRules_fits h3, fun v hv => fpRules_fits (hv ▸ h2)⟩

theorem toInt_ofInt_fits {x : Int} (h : Fits32 x) : (BitVec.ofInt 32 x).toInt = x := by
  unfold Fits32 at h
  rw [BitVec.toInt_ofInt]
  exact Int.bmod_eq_of_le (by omega) (by omega)

/-- The invariant of the loop. -/
structure Good (so : SFrameOptions) (arch : Architecture) (fde : DwFde) (rs : List DwRow) : Prop where
  clean : Clean so arch fde rs
  inv : FdeInv (built so arch fde rs)
  perm : (rows (built so arch fde rs)).Perm ((live rs).map fun r => storedRow so (rowOf arch fde r))

theorem good_nil (so arch fde) : Good so arch fde [] :=
  ⟨⟨by simp [live], by simp [live]⟩, (FuncDescBuilder.Reachable.new ..).inv, .refl _⟩

theorem start_eq_iff {arch fde} {r r' : DwRow} (h : Near fde r) (h' : Near fde r') :
    (rowOf arch fde r).startAddress = (rowOf arch fde r').startAddress ↔ r.start = r'.start := by
  unfold Near at h h'
  rw [← BitVec.toNat_inj, ← BitVec.toNat_inj]
  simp only [rowOf, BitVec.toNat_ofNat]
  omega

theorem Spec.Placed.near {so arch fde r} (h : Placed so arch fde r) : Near fde r := by
  have := h.after
  have := h.small
  unfold Near
  omega

theorem rowOf_start {arch fde r} (h : Near fde r) :
    (rowOf arch fde r).startAddress.toNat = r.start.toNat - fde.initial.toNat := by
  unfold Near at h
  simp only [rowOf, BitVec.toNat_ofNat]
  omega

/-- Adding one more row. -/
theorem built_row {so arch fde rs} {r : DwRow} (hg : Good so arch fde rs) (hfp : so.fixedFp = none)
    (hlen : fde.len.toNat ≤ i32Max) (hz : r.start ≠ r.end_) (hn : Near fde r) :
    (Good so arch fde (rs ++ [r]) ∧
      (built so arch fde rs).row (rowOf arch fde r) = .ok (built so arch fde (rs ++ [r]))) ∨
    (¬ Clean so arch fde (rs ++ [r]) ∧ ∃ e, (built so arch fde rs).row (rowOf arch fde r) = .error e) := by
  have hst := rowOf_start (arch := arch) hn
  have hsz : (built so arch fde rs).size.toNat = fde.len.toNat := by
    show (fde.len.setWidth 32).toNat = _
    rw [BitVec.toNat_setWidth]
    unfold i32Max at hlen
    omega
  have hrep : (built so arch fde rs).repSize = none := rfl
  have hopt : (built so arch fde rs).options = so := rfl
  have hra : ((rowOf arch fde r).offsets.all fun x => fixedAllows so.fixedRa x.ra) = true ↔
      ∀ t v, translate arch r = some t → so.fixedRa = some v → t.ra = v.val.toInt := by
    unfold rowOf
    cases ht : translate arch r with
    | none => simp
    | some t =>
      cases hv : so.fixedRa with
      | none => simp [fixedAllows]
      | some v =>
        simp only [Option.map_some, Option.all_some, fixedAllows, decide_eq_true_eq,
          toInt_ofInt_fits (translate_fits ht).2.1, Option.some.injEq]
        constructor
        · rintro h _ _ rfl rfl; exact h.symm
        · intro h; exact (h t v rfl rfl).symm
  have hfpa : ((rowOf arch fde r).offsets.all fun x => fixedAllows so.fixedFp x.fp) = true := by
    rw [hfp]
    cases (rowOf arch fde r).offsets <;> simp [fixedAllows]
  have hdup : ((rows (built so arch fde rs)).all fun r' =>
        decide (r'.startAddress ≠ (rowOf arch fde r).startAddress)) = true ↔
      ∀ r' ∈ live rs, r'.start ≠ r.start := by
    simp only [List.all_eq_true, decide_eq_true_eq]
    constructor
    · intro h r' hr' heq
      refine h (storedRow so (rowOf arch fde r')) (hg.perm.mem_iff.2 (List.mem_map_of_mem hr')) ?_
      exact (start_eq_iff (hg.clean.placed r' hr').near hn).2 heq
    · intro h x hx heq
      obtain ⟨r', hr', rfl⟩ := List.mem_map.1 (hg.perm.mem_iff.1 hx)
      exact h r' hr' ((start_eq_iff (hg.clean.placed r' hr').near hn).1 heq)
  have hcases := rowError_cases (built so arch fde rs) (rowOf arch fde r)
  have hspec := row_spec hg.inv (rowOf arch fde r)
  rw [hrep, hopt, hsz, hst] at hcases
  by_cases hc : Clean so arch fde (rs ++ [r])
  · left
    obtain ⟨_, hp, hd⟩ := (clean_live hz).1 hc
    have h1 : r.start.toNat - fde.initial.toNat < 2 ^ 28 := by
      have := hp.small; have := hp.after; omega
    have h2 : r.start.toNat - fde.initial.toNat < fde.len.toNat := by
      have := hp.inside; have := hp.after; omega
    have hnone : rowError (built so arch fde rs) (rowOf arch fde r) = none := by
      rw [hcases, if_neg (by simpa using h1), if_neg (by simp), if_neg (by simpa using h2),
        if_neg (by simpa using hra.2 hp.ra), if_neg (by simpa using hfpa), if_neg (by simpa using hdup.2 hd)]
    rw [hnone] at hspec
    have hrow : (built so arch fde rs).row (rowOf arch fde r)
        = .ok (built so arch fde (rs ++ [r])) := by
      rw [hspec]
      simp only [built, live_append, live_single hz, List.foldl_append, List.foldl_cons, List.foldl_nil]
      rfl
    refine ⟨⟨hc, hg.inv.row hrow, ?_⟩, hrow⟩
    have hno : (built so arch fde rs).fres.get ordU32 (rowOf arch fde r).startAddress = none := by
      rw [get_none_iff_rows hg.inv]
      simpa using hdup.2 hd
    have hperm := (insert_perm (v := storedRow so (rowOf arch fde r)) (BMap.get_eq_none_iff.1 hno)).map Prod.snd
    have heq : rows (built so arch fde (rs ++ [r])) =
        ((built so arch fde rs).fres.insert ordU32 (rowOf arch fde r).startAddress
          (storedRow so (rowOf arch fde r))).map Prod.snd := by
      simp only [rows, built, live_append, live_single hz, List.foldl_append, List.foldl_cons, List.foldl_nil]
    rw [heq, live_append, live_single hz, List.map_append]
    exact hperm.trans ((hg.perm.cons _).trans (List.perm_append_comm (l₁ := [_])))
  · right
    refine ⟨hc, ?_⟩
    rw [hspec]
    cases he : rowError (built so arch fde rs) (rowOf arch fde r) with
    | some e => exact ⟨e, rfl⟩
    | none =>
      exfalso
      apply hc
      rw [clean_live hz]
      rw [he] at hcases
      refine ⟨hg.clean, ?_⟩
      by_cases h1 : r.start.toNat - fde.initial.toNat < 2 ^ 28
      case neg => rw [if_pos h1] at hcases; cases hcases
      rw [if_neg (by simpa using h1), if_neg (by simp)] at hcases
      by_cases h2 : r.start.toNat - fde.initial.toNat < fde.len.toNat
      case neg => rw [if_pos h2] at hcases; cases hcases
      rw [if_neg (by simpa using h2)] at hcases
      by_cases h3 : ((rowOf arch fde r).offsets.all fun x => fixedAllows so.fixedRa x.ra) = true
      case neg => rw [if_pos h3] at hcases; cases hcases
      rw [if_neg (by simpa using h3), if_neg (by simpa using hfpa)] at hcases
      by_cases h4 : ((rows (built so arch fde rs)).all fun r' =>
        decide (r'.startAddress ≠ (rowOf arch fde r).startAddress)) = true
      case neg => rw [if_pos h4] at hcases; cases hcases
      have hle := hn.1
      exact ⟨⟨hle, by omega, by omega, hra.1 h3⟩, hdup.1 h4⟩

theorem Good.dead {so arch fde rs} {r : DwRow} (hg : Good so arch fde rs) (h : r.start = r.end_) :
    Good so arch fde (rs ++ [r]) :=
  ⟨(clean_dead h).2 hg.clean, by rw [built_dead h]; exact hg.inv,
    by rw [built_dead h, live_append, live_dead h, List.append_nil]; exact hg.perm⟩

/-- The warnings for a list of rows. -/
def warningsFor (opts : Options) (fde : DwFde) (rs : List DwRow) : List Warning :=
  (live rs).flatMap (warningFor opts fde)

theorem warningsFor_append (opts fde rs rs') :
    warningsFor opts fde (rs ++ rs') = warningsFor opts fde rs ++ warningsFor opts fde rs' := by
  simp [warningsFor, live_append]

/-- One item of the table, after the rows `pre`. -/
theorem convertRows_item {dbg : Bool} {so : SFrameOptions} {opts : Options} {fde : DwFde}
    {pre : List DwRow} (x : Except GErr DwRow) (rest : List (Except GErr DwRow)) (log : List Warning)
    (hfp : so.fixedFp = none) (hi : fde.initial.toNat ≤ i32Max) (hlen : fde.len.toNat ≤ i32Max)
    (hg : Good so opts.arch fde pre) :
    (∃ r, x = .ok r ∧ Good so opts.arch fde (pre ++ [r]) ∧
      convertRows dbg opts fde (x :: rest) (built so opts.arch fde pre) log
        = convertRows dbg opts fde rest (built so opts.arch fde (pre ++ [r]))
            (log ++ warningsFor opts fde [r])) ∨
    (∃ e, itemError fde x = some e ∧ ¬ (dbg = true ∧ Before fde x) ∧
      convertRows dbg opts fde (x :: rest) (built so opts.arch fde pre) log = .ok (.error e)) ∨
    (((dbg = true ∧ Before fde x) ∨ Misplaced so opts.arch fde pre x) ∧
      (convertRows dbg opts fde (x :: rest) (built so opts.arch fde pre) log).Panics) := by
  cases x with
  | error e =>
    exact .inr (.inl ⟨_, rfl, (by rintro ⟨_, _, h, _⟩; cases h), rfl⟩)
  | ok r =>
    by_cases hz : r.start = r.end_
    · refine .inl ⟨r, rfl, hg.dead hz, ?_⟩
      rw [convertRows_cons, if_pos hz, built_dead hz]
      simp [warningsFor, live_dead hz]
    · rcases rowStart_cases dbg fde r hi with ⟨h, hd, hn⟩ | ⟨h, hn, hb⟩ | ⟨h, hn⟩
      · refine .inr (.inr ⟨.inl ⟨hd, r, rfl, hz, ?_⟩, .overflow, ?_⟩)
        · rcases subU64_cases dbg r.start fde.initial with ⟨_, _, h2⟩ | ⟨h1, _⟩
          · exact h2
          · unfold rowStart at h
            rw [h1] at h
            simp only [Rust.bind_ok] at h
            split at h
            · split at h <;> cases h
            · cases h
        · rw [convertRows_cons, if_neg hz, h]
          rfl
      · refine .inr (.inl ⟨.invalidRowOffset r.start (r.start - fde.initial), ?_, ?_, ?_⟩)
        rotate_right
        · rw [convertRows_cons, if_neg hz, h]
          rfl
        · unfold itemError
          exact if_pos ⟨hz, hn⟩
        · rintro ⟨hd, r', hr, _, hlt⟩
          cases hr
          exact hb ⟨hd, hlt⟩
      · rcases built_row hg hfp hlen hz hn with ⟨hg', hr⟩ | ⟨hc, hr⟩
        · rcases convertRows_step dbg opts fde r rest (built so opts.arch fde pre) log hz hn h rfl
            with ⟨⟨e, he⟩, _⟩ | ⟨sfde', he, hs⟩
          · rw [hr] at he; cases he
          · rw [hr] at he
            cases he
            refine .inl ⟨r, rfl, hg', ?_⟩
            rw [hs]
            simp [warningsFor, live_single hz]
        · rcases convertRows_step dbg opts fde r rest (built so opts.arch fde pre) log hz hn h rfl
            with ⟨_, hp⟩ | ⟨sfde', he, hs⟩
          · exact .inr (.inr ⟨.inr ⟨r, rfl, hz, hn, hc⟩, hp⟩)
          · obtain ⟨e, hr⟩ := hr
            rw [hr] at he; cases he

/-- The loop over the rows: it goes through, or stops at the first item that cannot be added. -/
theorem convertRows_cases {dbg : Bool} {so : SFrameOptions} {opts : Options} {fde : DwFde}
    {pre : List DwRow} (xs : List (Except GErr DwRow)) (log : List Warning)
    (hfp : so.fixedFp = none) (hi : fde.initial.toNat ≤ i32Max) (hlen : fde.len.toNat ≤ i32Max)
    (hg : Good so opts.arch fde pre) :
    (∃ rs, xs = rs.map .ok ∧ Good so opts.arch fde (pre ++ rs) ∧
      convertRows dbg opts fde xs (built so opts.arch fde pre) log
        = .ok (.ok (built so opts.arch fde (pre ++ rs), log ++ warningsFor opts fde rs))) ∨
    (∃ rs x rest, xs = rs.map .ok ++ x :: rest ∧ Good so opts.arch fde (pre ++ rs) ∧
      ((∃ e, itemError fde x = some e ∧ ¬ (dbg = true ∧ Before fde x) ∧
        convertRows dbg opts fde xs (built so opts.arch fde pre) log = .ok (.error e)) ∨
      (((dbg = true ∧ Before fde x) ∨ Misplaced so opts.arch fde (pre ++ rs) x) ∧
        (convertRows dbg opts fde xs (built so opts.arch fde pre) log).Panics))) := by
  induction xs generalizing pre log with
  | nil => exact .inl ⟨[], rfl, by rwa [List.append_nil], by
      rw [List.append_nil]; simp [convertRows, warningsFor, live]⟩
  | cons x rest ih =>
    rcases convertRows_item (dbg := dbg) x rest log hfp hi hlen hg with
      ⟨r, rfl, hg', he⟩ | h | h
    · rw [he]
      rcases ih (log ++ warningsFor opts fde [r]) hg' with
        ⟨rs, rfl, hg'', h⟩ | ⟨rs, y, rest', rfl, hg'', h⟩
      · refine .inl ⟨r :: rs, rfl, by simpa using hg'', ?_⟩
        rw [h, List.append_assoc, List.append_assoc, ← warningsFor_append]
        rfl
      · refine .inr ⟨r :: rs, y, rest', rfl, by simpa using hg'', ?_⟩
        simpa using h
    · exact .inr ⟨[], x, rest, rfl, by rwa [List.append_nil], .inl h⟩
    · exact .inr ⟨[], x, rest, rfl, by rwa [List.append_nil], .inr (by rwa [List.append_nil])⟩

theorem clean_prefix {so arch fde rs rs'} (h : Clean so arch fde (rs ++ rs')) :
    Clean so arch fde rs := by
  obtain ⟨h1, h2⟩ := h
  rw [live_append] at h1 h2
  exact ⟨fun r hr => h1 r (List.mem_append_left _ hr), (List.pairwise_append.1 h2).1⟩

/-- Items that can be added have nothing wrong with them. -/
theorem clean_fine {so arch fde pre r} (h : Clean so arch fde (pre ++ [r])) :
    itemError fde (.ok r) = none ∧ ¬ Before fde (.ok r) ∧ ¬ Misplaced so arch fde pre (.ok r) := by
  refine ⟨?_, ?_, ?_⟩
  · unfold itemError
    refine if_neg ?_
    rintro ⟨hz, hn⟩
    exact hn ((clean_live hz).1 h).2.1.near
  · rintro ⟨r', hr, hz, hlt⟩
    cases hr
    have := ((clean_live hz).1 h).2.1.after
    omega
  · rintro ⟨r', hr, _, _, hc⟩
    cases hr
    exact hc h

theorem misplaced_noError {so arch fde pre x} (h : Misplaced so arch fde pre x) :
    itemError fde x = none ∧ ¬ Before fde x := by
  obtain ⟨r, rfl, hz, hn, _⟩ := h
  refine ⟨if_neg fun h => h.2 hn, ?_⟩
  rintro ⟨r', hr, _, hlt⟩
  cases hr
  have := hn.1
  omega

theorem convertRows_prefix {dbg : Bool} {so : SFrameOptions} {opts : Options} {fde : DwFde}
    {pre rs : List DwRow} (rest : List (Except GErr DwRow)) (log : List Warning)
    (hfp : so.fixedFp = none) (hi : fde.initial.toNat ≤ i32Max) (hlen : fde.len.toNat ≤ i32Max)
    (hg : Good so opts.arch fde pre) (hc : Clean so opts.arch fde (pre ++ rs)) :
    Good so opts.arch fde (pre ++ rs) ∧
    convertRows dbg opts fde (rs.map .ok ++ rest) (built so opts.arch fde pre) log
      = convertRows dbg opts fde rest (built so opts.arch fde (pre ++ rs))
          (log ++ warningsFor opts fde rs) := by
  induction rs generalizing pre log with
  | nil => simp [warningsFor, live, hg]
  | cons r rs ih =>
    have hc' : Clean so opts.arch fde (pre ++ [r]) :=
      clean_prefix (rs' := rs) (by simpa using hc)
    have hfine := clean_fine hc'
    rcases convertRows_item (dbg := dbg) (.ok r) (rs.map .ok ++ rest) log hfp hi hlen hg with
      ⟨r', hr, hg', he⟩ | ⟨e, he, _⟩ | ⟨h, _⟩
    · cases hr
      obtain ⟨h1, h2⟩ := ih (pre := pre ++ [r]) (log ++ warningsFor opts fde [r]) hg' (by simpa using hc)
      refine ⟨by simpa using h1, ?_⟩
      simp only [List.map_cons, List.cons_append]
      rw [he, h2, List.append_assoc, List.append_assoc, ← warningsFor_append]
      rfl
    · rw [hfine.1] at he; cases he
    · rcases h with h | h
      · exact absurd h.2 hfine.2.1
      · exact absurd h hfine.2.2

theorem good_iff {so arch fde rs} (hfp : so.fixedFp = none) (hi : fde.initial.toNat ≤ i32Max)
    (hlen : fde.len.toNat ≤ i32Max) : Good so arch fde rs ↔ Clean so arch fde rs :=
  ⟨fun h => h.clean, fun h => (convertRows_prefix (dbg := false) (so := so) (opts := { Options.new arch Bases.default with arch := arch }) (pre := []) [] [] hfp hi hlen (good_nil ..) h).1⟩

section rowsIff
variable {dbg : Bool} {so : SFrameOptions} {opts : Options} {fde : DwFde} {log : List Warning}

theorem convertRows_item_error {pre : List DwRow} {x : Except GErr DwRow} {e : ConvError}
    (rest : List (Except GErr DwRow))
    (hfp : so.fixedFp = none) (hi : fde.initial.toNat ≤ i32Max) (hlen : fde.len.toNat ≤ i32Max)
    (hg : Good so opts.arch fde pre) (he : itemError fde x = some e)
    (hb : ¬ (dbg = true ∧ Before fde x)) :
    convertRows dbg opts fde (x :: rest) (built so opts.arch fde pre) log = .ok (.error e) := by
  rcases convertRows_item (dbg := dbg) x rest log hfp hi hlen hg with
    ⟨r, rfl, hg', _⟩ | ⟨e', he', _, h⟩ | ⟨h, _⟩
  · rw [(clean_fine hg'.clean).1] at he; cases he
  · rw [he] at he'; cases he'; exact h
  · rcases h with h | h
    · exact absurd h hb
    · rw [(misplaced_noError h).1] at he; cases he

theorem convertRows_item_panics {pre : List DwRow} {x : Except GErr DwRow}
    (rest : List (Except GErr DwRow))
    (hfp : so.fixedFp = none) (hi : fde.initial.toNat ≤ i32Max) (hlen : fde.len.toNat ≤ i32Max)
    (hg : Good so opts.arch fde pre)
    (hb : (dbg = true ∧ Before fde x) ∨ Misplaced so opts.arch fde pre x) :
    (convertRows dbg opts fde (x :: rest) (built so opts.arch fde pre) log).Panics := by
  rcases convertRows_item (dbg := dbg) x rest log hfp hi hlen hg with
    ⟨r, rfl, hg', _⟩ | ⟨e', he', hn, h⟩ | ⟨h, hp⟩
  · have := clean_fine hg'.clean
    rcases hb with hb | hb
    · exact absurd hb.2 this.2.1
    · exact absurd hb this.2.2
  · rcases hb with hb | hb
    · exact absurd hb hn
    · rw [(misplaced_noError hb).1] at he'; cases he'
  · exact hp

end rowsIff

/-! ### One function -/

theorem dumpExpression_eq (e : Expr) : dumpExpression e =
    match (e.findSome? fun | .error e => some e | .ok _ => none : Option GErr) with
    | some g => .error g
    | none => .ok () := by
  induction e with
  | nil => rfl
  | cons x e ih =>
    cases x with
    | error g => rfl
    | ok u =>
      rw [dumpExpression, ih]
      simp only [List.findSome?_cons]

theorem dumpCfi_eq (is : List (Except GErr Insn)) : dumpCfiInstructions is =
    match ((is.takeWhile Except.isOk).flatMap fun
      | .ok (.defCfaExpression e) => e
      | .ok (.expression _ e) => e
      | .ok (.valExpression _ e) => e
      | _ => []).findSome? (fun | .error e => some e | .ok _ => none) with
    | some g => .error g
    | none => .ok () := by
  induction is with
  | nil => rfl
  | cons x is ih =>
    cases x with
    | error g => rfl
    | ok i =>
      have expr : ∀ e, i.expr? = some e → (match (i : Insn) with
          | .defCfaExpression e => e
          | .expression _ e => e
          | .valExpression _ e => e
          | _ => []) = e := by
        cases i <;> intro e h <;> cases h <;> rfl
      have plain : i.expr? = none → (match (i : Insn) with
          | .defCfaExpression e => e
          | .expression _ e => e
          | .valExpression _ e => e
          | _ => []) = [] := by
        cases i <;> intro h <;> first | rfl | cases h
      rw [dumpCfiInstructions, List.takeWhile_cons_of_pos (by rfl), List.flatMap_cons, List.findSome?_append]
      cases hi : i.expr? with
      | none =>
        have := plain hi
        dsimp only
        rw [ih]
        cases i <;> first | rfl | cases hi
      | some e =>
        have := expr e hi
        dsimp only
        rw [dumpExpression_eq, ih]
        cases i <;> cases hi <;>
          (dsimp only; cases List.findSome? (fun | .error e => some e | .ok _ => none) e <;> rfl)

theorem dump_eq (fde : DwFde) : dumpCfiInstructions fde.instructions =
    match dumpError fde with
    | some g => .error g
    | none => .ok () := dumpCfi_eq _

/-- The converted function. -/
def fnFor (so : SFrameOptions) (opts : Options) (fde : DwFde) : FuncDescBuilder :=
  if opts.mergeFres then
    { built so opts.arch fde (rowsOf fde) with fres := mergeKeep (built so opts.arch fde (rowsOf fde)).fres }
  else built so opts.arch fde (rowsOf fde)

theorem rowsOf_map {fde : DwFde} {rs : List DwRow} (h : fde.rows = .ok (rs.map .ok)) :
    rowsOf fde = rs := by
  unfold rowsOf
  rw [h]
  simp only [List.filterMap_map]
  clear h
  induction rs with
  | nil => rfl
  | cons r rs ih => simpa [Except.toOption] using ih

theorem addU64_cases (dbg : Bool) (a b : U64) :
    (addU64 dbg a b = .panic .overflow ∧ dbg = true ∧ 2 ^ 64 ≤ a.toNat + b.toNat) ∨
    (addU64 dbg a b = .ok (a + b) ∧ ¬ (dbg = true ∧ 2 ^ 64 ≤ a.toNat + b.toNat)) := by
  unfold addU64
  by_cases h : dbg = true ∧ 2 ^ 64 ≤ a.toNat + b.toNat
  · exact .inl ⟨by rw [if_pos (by simpa using h)], h⟩
  · exact .inr ⟨by rw [if_neg (by simpa using h)], h⟩

theorem FuncDescBuilder.new_eq_built (so arch fde) :
    FuncDescBuilder.new so (fde.initial.setWidth 32) (fde.len.setWidth 32) = built so arch fde [] := rfl

/-- The state after a function has been converted. -/
def ConvState.after (st : ConvState) (opts : Options) (fde : DwFde) : ConvState :=
  { st with
    sframe := { st.sframe with fdes := st.sframe.fdes.insert ordI32 (fde.initial.setWidth 32) (fnFor st.sframe.options opts fde) }
    log := st.log ++ warningsFor opts fde (rowsOf fde) }

theorem fnFor_fields (so opts fde) :
    (fnFor so opts fde).options = so ∧ (fnFor so opts fde).startAddress = fde.initial.setWidth 32 ∧
    (fnFor so opts fde).size = fde.len.setWidth 32 ∧ (fnFor so opts fde).repSize = none ∧
    (fnFor so opts fde).pauthKey = .A := by
  unfold fnFor
  split <;> exact ⟨rfl, rfl, rfl, rfl, rfl⟩

/-- The part of `convertFde` after the debug dump and the range checks. -/
theorem convertFde_tail {dbg : Bool} {opts : Options} {st : ConvState} {fde : DwFde}
    {xs : List (Except GErr DwRow)}
    (hd : DumpOk opts fde) (hi : fde.initial.toNat ≤ i32Max) (hlen : fde.len.toNat ≤ i32Max)
    (hr : fde.rows = .ok xs) :
    convertFde dbg opts st fde =
      (convertRows dbg opts fde xs (built st.sframe.options opts.arch fde []) st.log).bind fun
      | .error e => .ok (.error e)
      | .ok (sfde, log) =>
        (if opts.mergeFres then sfde.mergeAdjacentFres else .ok sfde).bind fun sfde =>
        (st.sframe.fde sfde).bind fun sframe =>
        .ok (.ok { st with sframe := sframe, log := log }) := by
  unfold convertFde
  have h1 : (if opts.debugdump then
      (addU64 dbg fde.initial fde.len).bind fun _ => Rust.ok (dumpCfiInstructions fde.instructions)
      else .ok (.ok ())) = Rust.ok (.ok ()) := by
    by_cases hdd : opts.debugdump = true
    · rw [if_pos hdd]
      rcases addU64_cases dbg fde.initial fde.len with ⟨_, _, h⟩ | ⟨h, _⟩
      · unfold i32Max at hi hlen; omega
      · rw [h, Rust.bind_ok, dump_eq, hd hdd]
    · rw [if_neg hdd]
  rw [h1, Rust.bind_ok]
  simp only
  rw [if_neg (show ¬ fde.initial.toNat > i32Max by omega), if_neg (show ¬ fde.len.toNat > i32Max by omega), hr]
  simp only [← FuncDescBuilder.new_eq_built st.sframe.options opts.arch fde] <;> congr 1

theorem convertFde_ok {dbg : Bool} {opts : Options} {st : ConvState} {fde : DwFde}
    (hfp : st.sframe.options.fixedFp = none) (h : Convertible st.sframe.options opts fde) :
    convertFde dbg opts st fde = .ok (.ok (st.after opts fde)) := by
  rw [convertFde_tail h.dump h.start h.len h.rows]
  have hg := (good_iff hfp h.start h.len).2 h.clean
  have hp := (convertRows_prefix (dbg := dbg) (opts := opts) (pre := []) (rs := rowsOf fde) [] st.log hfp h.start h.len
    (good_nil st.sframe.options opts.arch fde) h.clean).2
  rw [List.append_nil] at hp
  rw [hp]
  simp only [convertRows, Rust.bind_ok, List.nil_append]
  have hm : (if opts.mergeFres then (built st.sframe.options opts.arch fde (rowsOf fde)).mergeAdjacentFres
      else .ok (built st.sframe.options opts.arch fde (rowsOf fde)))
      = Rust.ok (fnFor st.sframe.options opts fde) := by
    unfold fnFor
    by_cases hmf : opts.mergeFres = true
    · rw [if_pos hmf, if_pos hmf, mergeAdjacentFres_eq hg.inv]
    · rw [if_neg hmf, if_neg hmf]
  rw [hm, Rust.bind_ok]
  unfold SFrameBuilder.fde
  obtain ⟨f1, f2, _⟩ := fnFor_fields st.sframe.options opts fde
  rw [if_pos f1.symm, Rust.bind_ok, f2]
  rfl

theorem convertFde_error {dbg : Bool} {opts : Options} {st : ConvState} {fde : DwFde} {e : ConvError}
    (hfp : st.sframe.options.fixedFp = none) (h : FdeFails dbg st.sframe.options opts fde e) :
    convertFde dbg opts st fde = .ok (.error e) := by
  have hdump : ∀ hd : DumpOk opts fde, ¬ (dbg = true ∧ DumpOverflows opts fde) →
      (if opts.debugdump then
        (addU64 dbg fde.initial fde.len).bind fun _ => Rust.ok (dumpCfiInstructions fde.instructions)
        else .ok (.ok ())) = Rust.ok (.ok ()) := by
    intro hd ho
    by_cases hdd : opts.debugdump = true
    · rw [if_pos hdd]
      rcases addU64_cases dbg fde.initial fde.len with ⟨_, h1, h⟩ | ⟨h, _⟩
      · exact absurd ⟨h1, hdd, h⟩ ho
      · rw [h, Rust.bind_ok, dump_eq, hd hdd]
    · rw [if_neg hdd]
  cases h with
  | dump g hdd ho he =>
    unfold convertFde
    rw [if_pos hdd]
    rcases addU64_cases dbg fde.initial fde.len with ⟨_, h1, h⟩ | ⟨h, _⟩
    · exact absurd ⟨h1, hdd, h⟩ ho
    · rw [h, Rust.bind_ok, dump_eq, he]
      rfl
  | start ho hd hi =>
    unfold convertFde
    rw [hdump hd ho, Rust.bind_ok]
    exact if_pos hi
  | len ho hd hi hl =>
    unfold convertFde
    rw [hdump hd ho, Rust.bind_ok]
    simp only
    rw [if_neg (show ¬ fde.initial.toNat > i32Max by unfold i32Max; omega)]
    exact if_pos hl
  | table g hd hi hl hr =>
    unfold convertFde
    rw [hdump hd (fun h => by have := h.2.2; omega), Rust.bind_ok]
    simp only
    rw [if_neg (show ¬ fde.initial.toNat > i32Max by unfold i32Max; omega),
      if_neg (show ¬ fde.len.toNat > i32Max by unfold i32Max; omega), hr]
  | row rs x rest _ hd hi hl hr hc he hb =>
    rw [convertFde_tail hd hi hl hr]
    obtain ⟨hg, hp⟩ := convertRows_prefix (dbg := dbg) (opts := opts) (pre := []) (x :: rest) st.log hfp
      hi hl (good_nil st.sframe.options opts.arch fde) hc
    rw [hp, convertRows_item_error rest hfp hi hl hg he hb]
    rfl

theorem convertFde_panics {dbg : Bool} {opts : Options} {st : ConvState} {fde : DwFde}
    (hfp : st.sframe.options.fixedFp = none) (h : FdePanics dbg st.sframe.options opts fde) :
    (convertFde dbg opts st fde).Panics := by
  cases h with
  | dump hb ho =>
    unfold convertFde
    rw [if_pos ho.1]
    rcases addU64_cases dbg fde.initial fde.len with ⟨h, _⟩ | ⟨_, h⟩
    · rw [h]; exact ⟨_, rfl⟩
    · exact absurd ⟨hb, ho.2⟩ h
  | row rs x rest hd hi hl hr hc hx =>
    rw [convertFde_tail hd hi hl hr]
    obtain ⟨hg, hp⟩ := convertRows_prefix (dbg := dbg) (opts := opts) (pre := []) (x :: rest) st.log hfp
      hi hl (good_nil st.sframe.options opts.arch fde) hc
    obtain ⟨p, h⟩ := convertRows_item_panics (log := st.log ++ warningsFor opts fde rs) rest hfp hi hl hg hx
    rw [hp, h]
    exact ⟨p, rfl⟩

theorem fde_cases (dbg : Bool) (so : SFrameOptions) (opts : Options) (fde : DwFde)
    (hfp : so.fixedFp = none) :
    Convertible so opts fde ∨ (∃ e, FdeFails dbg so opts fde e) ∨ FdePanics dbg so opts fde := by
  by_cases ho : dbg = true ∧ DumpOverflows opts fde
  · exact .inr (.inr (.dump ho.1 ho.2))
  by_cases hd : DumpOk opts fde
  case neg =>
    unfold DumpOk at hd
    rw [Classical.not_imp] at hd
    obtain ⟨hdd, he⟩ := hd
    obtain ⟨g, hg⟩ := Option.ne_none_iff_exists'.1 he
    exact .inr (.inl ⟨_, .dump g hdd ho hg⟩)
  by_cases hi : fde.initial.toNat ≤ 2147483647
  case neg => exact .inr (.inl ⟨_, .start ho hd (by omega)⟩)
  by_cases hl : fde.len.toNat ≤ 2147483647
  case neg => exact .inr (.inl ⟨_, .len ho hd hi (by omega)⟩)
  cases hr : fde.rows with
  | error g => exact .inr (.inl ⟨_, .table g hd hi hl hr⟩)
  | ok xs =>
    rcases convertRows_cases (dbg := dbg) (so := so) (opts := opts) (pre := []) xs [] hfp hi hl (good_nil so opts.arch fde)
      with ⟨rs, rfl, hg, _⟩ | ⟨rs, x, rest, rfl, hg, h⟩
    · have := rowsOf_map hr
      exact .inl ⟨hd, hi, hl, by rw [this]; exact hr, by rw [this]; exact hg.clean⟩
    · rcases h with ⟨e, h1, h2, _⟩ | ⟨h1, _⟩
      · exact .inr (.inl ⟨e, .row rs x rest e hd hi hl hr hg.clean h1 h2⟩)
      · exact .inr (.inr (.row rs x rest hd hi hl hr hg.clean h1))

/-! ### All functions -/

/-- The section with the given functions; later ones replace earlier ones at the same start. -/
def withFns (so : SFrameOptions) (fs : List FuncDescBuilder) : SFrameBuilder :=
  { options := so, fdes := fs.foldl (fun m f => m.insert ordI32 f.startAddress f) [] }

/-- The cache holds what would be parsed anew. -/
def CacheOk (opts : Options) (eh : EhFrame) (cies : List (Nat × Except GErr Cie)) : Prop :=
  ∀ x ∈ cies, x.2 = eh.cieFromOffset opts.bases x.1

theorem lookupCie_ok {opts eh cies} (h : CacheOk opts eh cies) (off : Nat) :
    (lookupCie opts eh cies off).1 = eh.cieFromOffset opts.bases off ∧
    CacheOk opts eh (lookupCie opts eh cies off).2 := by
  unfold lookupCie
  cases hl : cies.lookup off with
  | none =>
    refine ⟨rfl, fun x hx => ?_⟩
    rcases List.mem_cons.1 hx with rfl | hx
    · rfl
    · exact h x hx
  | some c =>
    refine ⟨?_, h⟩
    obtain ⟨l1, l2, he, _⟩ := List.lookup_eq_some_iff.1 hl
    exact h (off, c) (by rw [he]; simp)

/-- The loop over the entries without CIE cache. -/
def convertInputs (dbg : Bool) (opts : Options) :
    List (Except ConvError DwFde) → SFrameBuilder → List Warning →
    Rust (Except ConvError (SFrameBuilder × List Warning))
  | [], b, log => .ok (.ok (b, log))
  | .error e :: _, _, _ => .ok (.error e)
  | .ok fde :: rest, b, log =>
    (convertFde dbg opts { sframe := b, cies := [], log := log } fde).bind fun
    | .error e => .ok (.error e)
    | .ok st => convertInputs dbg opts rest st.sframe st.log

theorem convertFde_cies (dbg : Bool) (opts : Options) (b : SFrameBuilder) (log : List Warning)
    (c c' : List (Nat × Except GErr Cie)) (fde : DwFde) :
    convertFde dbg opts { sframe := b, cies := c, log := log } fde =
      (convertFde dbg opts { sframe := b, cies := c', log := log } fde).bind fun
      | .error e => .ok (.error e)
      | .ok st => .ok (.ok { st with cies := c }) := by
  unfold convertFde
  generalize (if opts.debugdump then
      (addU64 dbg fde.initial fde.len).bind fun _ => Rust.ok (dumpCfiInstructions fde.instructions)
      else .ok (.ok ())) = d
  rcases d with (e | u) | p | _
  · rfl
  · simp only [Rust.bind_ok]
    by_cases h1 : fde.initial.toNat > i32Max
    · rw [if_pos h1, if_pos h1]; rfl
    rw [if_neg h1, if_neg h1]
    by_cases h2 : fde.len.toNat > i32Max
    · rw [if_pos h2, if_pos h2]; rfl
    rw [if_neg h2, if_neg h2]
    cases fde.rows with
    | error e => rfl
    | ok xs =>
      simp only
      generalize convertRows dbg opts fde xs _ log = r
      rcases r with (e | ⟨g, l⟩) | p | _
      · rfl
      · simp only [Rust.bind_ok]
        generalize (if opts.mergeFres then g.mergeAdjacentFres else Rust.ok g) = m
        rcases m with g' | p | _
        · simp only [Rust.bind_ok]
          cases b.fde g' <;> rfl
        · rfl
        · rfl
      · rfl
      · rfl
  · rfl
  · rfl

theorem convertEntries_eq (dbg : Bool) (opts : Options) (eh : EhFrame)
    (es : List (Except GErr Entry)) (st : ConvState) (hc : CacheOk opts eh st.cies) :
    ((convertEntries dbg opts eh es st).bind fun
      | .error e => .ok (.error e)
      | .ok st => .ok (.ok (st.sframe, st.log))) =
    convertInputs dbg opts (inputs { eh with entries := fun _ => es } opts.bases) st.sframe st.log := by
  induction es generalizing st with
  | nil => rfl
  | cons x es ih =>
    cases x with
    | error e => rfl
    | ok x =>
      cases x with
      | cie => exact ih st hc
      | fde off parse =>
        obtain ⟨h1, h2⟩ := lookupCie_ok hc off
        rw [convertEntries, h1]
        have hin : inputs { eh with entries := fun _ => .ok (.fde off parse) :: es } opts.bases =
            (match parse (eh.cieFromOffset opts.bases off) with
            | .error e => Except.error (.invalidDwarfFde e)
            | .ok fde => .ok fde) :: inputs { eh with entries := fun _ => es } opts.bases := by
          unfold inputs
          rw [List.filterMap_cons]
          simp only
          cases parse (eh.cieFromOffset opts.bases off) <;> rfl
        rw [hin]
        cases parse (eh.cieFromOffset opts.bases off) with
        | error e => rfl
        | ok fde =>
          simp only [convertInputs]
          rw [convertFde_cies dbg opts st.sframe st.log _ []]
          generalize convertFde dbg opts _ fde = r
          rcases r with (e | st') | p | _
          · rfl
          · simp only [Rust.bind_ok]
            exact ih _ h2
          · rfl
          · rfl

/-- The log of a list of functions. -/
def logFor (opts : Options) (fdes : List DwFde) : List Warning :=
  fdes.flatMap fun fde => warningsFor opts fde (rowsOf fde)

/-- The map after some more functions. -/
def addAll (so : SFrameOptions) (opts : Options) (m : BMap I32 FuncDescBuilder) (fdes : List DwFde) :
    BMap I32 FuncDescBuilder :=
  fdes.foldl (fun m fde => m.insert ordI32 (fde.initial.setWidth 32) (fnFor so opts fde)) m

/-- The section after some more functions. -/
def SFrameBuilder.more (b : SFrameBuilder) (opts : Options) (fdes : List DwFde) : SFrameBuilder :=
  { b with fdes := addAll b.options opts b.fdes fdes }

theorem convertInputs_prefix {dbg : Bool} {opts : Options} {b : SFrameBuilder} {fdes : List DwFde}
    (rest : List (Except ConvError DwFde)) (log : List Warning) (hfp : b.options.fixedFp = none)
    (h : ∀ fde ∈ fdes, Convertible b.options opts fde) :
    convertInputs dbg opts (fdes.map .ok ++ rest) b log =
      convertInputs dbg opts rest (b.more opts fdes) (log ++ logFor opts fdes) := by
  induction fdes generalizing b log with
  | nil => simp [SFrameBuilder.more, addAll, logFor]
  | cons fde fdes ih =>
    rw [List.map_cons, List.cons_append, convertInputs, convertFde_ok hfp (h fde (by simp)), Rust.bind_ok]
    simp only
    have := ih (b := (ConvState.after { sframe := b, cies := [], log := log } opts fde).sframe)
      (ConvState.after { sframe := b, cies := [], log := log } opts fde).log hfp
      (fun f hf => h f (List.mem_cons_of_mem _ hf))
    rw [this]
    simp [ConvState.after, logFor, SFrameBuilder.more, addAll]

theorem inputs_cases (dbg : Bool) (so : SFrameOptions) (opts : Options) (hfp : so.fixedFp = none)
    (xs : List (Except ConvError DwFde)) :
    (∃ fdes : List DwFde, xs = fdes.map .ok ∧ ∀ fde ∈ fdes, Convertible so opts fde) ∨
    (∃ (fdes : List DwFde) (x : _) (rest : _), xs = fdes.map .ok ++ x :: rest ∧ (∀ fde ∈ fdes, Convertible so opts fde) ∧
      ((∃ e, x = .error e ∨ ∃ fde, x = .ok fde ∧ FdeFails dbg so opts fde e) ∨
       (∃ fde, x = .ok fde ∧ FdePanics dbg so opts fde))) := by
  induction xs with
  | nil => exact .inl ⟨[], rfl, by simp⟩
  | cons x xs ih =>
    cases x with
    | error e => exact .inr ⟨[], _, xs, rfl, by simp, .inl ⟨e, .inl rfl⟩⟩
    | ok fde =>
      rcases fde_cases dbg so opts fde hfp with h | ⟨e, h⟩ | h
      · rcases ih with ⟨fdes, rfl, hh⟩ | ⟨fdes, y, rest, rfl, hh, hy⟩
        · exact .inl ⟨fde :: fdes, rfl, by simpa using ⟨h, hh⟩⟩
        · exact .inr ⟨fde :: fdes, y, rest, rfl, by simpa using ⟨h, hh⟩, hy⟩
      · exact .inr ⟨[], _, xs, rfl, by simp, .inl ⟨e, .inr ⟨fde, rfl, h⟩⟩⟩
      · exact .inr ⟨[], _, xs, rfl, by simp, .inr ⟨fde, rfl, h⟩⟩

theorem convertInputs_error {dbg : Bool} {opts : Options} {b : SFrameBuilder}
    {x : Except ConvError DwFde} {e : ConvError}
    (rest : List (Except ConvError DwFde)) (log : List Warning) (hfp : b.options.fixedFp = none)
    (h : x = .error e ∨ ∃ fde, x = .ok fde ∧ FdeFails dbg b.options opts fde e) :
    convertInputs dbg opts (x :: rest) b log = .ok (.error e) := by
  rcases h with rfl | ⟨fde, rfl, h⟩
  · rfl
  · rw [convertInputs, convertFde_error hfp h]
    rfl

theorem convertInputs_panics {dbg : Bool} {opts : Options} {b : SFrameBuilder} {fde : DwFde}
    (rest : List (Except ConvError DwFde)) (log : List Warning) (hfp : b.options.fixedFp = none)
    (h : FdePanics dbg b.options opts fde) :
    (convertInputs dbg opts (.ok fde :: rest) b log).Panics := by
  obtain ⟨p, hp⟩ := convertFde_panics (st := { sframe := b, cies := [], log := log }) hfp h
  rw [convertInputs, hp]
  exact ⟨p, rfl⟩

/-! ### The section -/

theorem sectionOptions_fp (eh : EhFrame) (opts : Options) : (sectionOptions eh opts).fixedFp = none := by
  unfold sectionOptions
  simp only
  split <;> rfl

/-- The section for a list of functions. -/
def outputOf (so : SFrameOptions) (opts : Options) (fdes : List DwFde) : SFrameBuilder :=
  (SFrameBuilder.new so).more opts fdes

theorem fnFor_inv {so opts fde} (hfp : so.fixedFp = none) (h : Convertible so opts fde) :
    FdeInv (fnFor so opts fde) := by
  have hg := (good_iff hfp h.start h.len).2 h.clean
  unfold fnFor
  split
  · exact hg.inv.mergeAdjacentFres (mergeAdjacentFres_eq hg.inv)
  · exact hg.inv

/-- Every entry of the output is the conversion of an input under its start. -/
theorem output_entries {so opts fdes} {b : SFrameBuilder}
    (P : I32 × FuncDescBuilder → Prop) (hb : ∀ e ∈ b.fdes, P e)
    (h : ∀ fde ∈ fdes, P (fde.initial.setWidth 32, fnFor so opts fde)) (hso : b.options = so) :
    ∀ e ∈ (b.more opts fdes).fdes, P e := by
  subst hso
  unfold SFrameBuilder.more addAll
  simp only
  generalize b.fdes = m at *
  induction fdes generalizing m with
  | nil => exact hb
  | cons fde fdes ih =>
    intro e he
    rw [List.foldl_cons] at he
    refine ih (fun f hf => h f (List.mem_cons_of_mem _ hf)) _ ?_ e he
    intro e' he'
    rcases BMap.mem_insert he' with rfl | he'
    · exact h fde (by simp)
    · exact hb e' he'

theorem output_sorted {opts fdes} {b : SFrameBuilder} (hb : b.fdes.Sorted ordI32) :
    (b.more opts fdes).fdes.Sorted ordI32 := by
  unfold SFrameBuilder.more addAll
  simp only
  generalize b.fdes = m at *
  induction fdes generalizing m with
  | nil => exact hb
  | cons fde fdes ih => exact ih _ (BMap.insert_sorted hb)

theorem output_inv {so opts fdes} (hfp : so.fixedFp = none) (h : ∀ fde ∈ fdes, Convertible so opts fde) :
    BuilderInv (outputOf so opts fdes) := by
  have hno : ∀ e ∈ (SFrameBuilder.new so).fdes, False := by simp [SFrameBuilder.new]
  refine ⟨output_sorted (by simp [SFrameBuilder.new, BMap.Sorted]), ?_, ?_, ?_⟩
  · exact output_entries _ (fun e he => (hno e he).elim) (fun fde _ => (fnFor_fields so opts fde).2.1.symm) rfl
  · exact output_entries _ (fun e he => (hno e he).elim) (fun fde _ => (fnFor_fields so opts fde).1) rfl
  · exact output_entries _ (fun e he => (hno e he).elim) (fun fde hf => fnFor_inv hfp (h fde hf)) rfl

theorem setWidth_toInt {x : U64} (h : x.toNat ≤ 2147483647) : (x.setWidth 32 : I32).toInt = x.toNat := by
  rw [BitVec.toInt_eq_toNat_cond, BitVec.toNat_setWidth]
  have : x.toNat % 2 ^ 32 = x.toNat := by omega
  rw [this, if_pos (by omega)]

/-- Merging functions does nothing to the output of the converter. -/
theorem output_merge {dbg so opts fdes} (hfp : so.fixedFp = none)
    (h : ∀ fde ∈ fdes, Convertible so opts fde) :
    (outputOf so opts fdes).mergeAdjacentFdes dbg = .ok (outputOf so opts fdes) := by
  refine mergeAdjacentFdes_id (output_inv hfp h) ?_
  have hno : ∀ e ∈ (SFrameBuilder.new so).fdes, False := by simp [SFrameBuilder.new]
  have hall : ∀ e ∈ (outputOf so opts fdes).fdes,
      0 ≤ e.1.toInt ∧ e.1.toInt ≤ 2147483647 ∧ e.2.size.toNat ≤ 2147483647 := by
    refine output_entries _ (fun e he => (hno e he).elim) (fun fde hf => ?_) rfl
    have hc := h fde hf
    have h1 := setWidth_toInt hc.start
    have h2 := hc.len
    have h3 := hc.start
    have h4 := (fnFor_fields so opts fde).2.2.1
    refine ⟨by simp only; omega, by simp only; omega, ?_⟩
    show (fnFor so opts fde).size.toNat ≤ _
    rw [h4, BitVec.toNat_setWidth]
    omega
  intro i e e' he he'
  have h1 := hall e (List.mem_of_getElem? he)
  have h2 := hall e' (List.mem_of_getElem? he')
  omega

/-- What `dwarf2sframe` does, by the first input it cannot handle. -/
theorem dwarf2sframe_cases (dbg : Bool) (eh : EhFrame) (opts : Options) :
    (∃ fdes : List DwFde, inputs eh opts.bases = fdes.map .ok ∧
      (∀ fde ∈ fdes, Convertible (sectionOptions eh opts) opts fde) ∧
      dwarf2sframeLog dbg eh opts
        = .ok (.ok (outputOf (sectionOptions eh opts) opts fdes, logFor opts fdes))) ∨
    (∃ (fdes : List DwFde) (x : _) (rest : _), inputs eh opts.bases = fdes.map .ok ++ x :: rest ∧
      (∀ fde ∈ fdes, Convertible (sectionOptions eh opts) opts fde) ∧
      ((∃ e, (x = .error e ∨ ∃ fde, x = .ok fde ∧ FdeFails dbg (sectionOptions eh opts) opts fde e) ∧
        dwarf2sframeLog dbg eh opts = .ok (.error e)) ∨
       (∃ fde, x = .ok fde ∧ FdePanics dbg (sectionOptions eh opts) opts fde ∧
        (dwarf2sframeLog dbg eh opts).Panics))) := by
  have hfp := sectionOptions_fp eh opts
  have hfp' : (SFrameBuilder.new (sectionOptions eh opts)).options.fixedFp = none := hfp
  have heq := convertEntries_eq dbg opts eh (eh.entries opts.bases)
    { sframe := SFrameBuilder.new (sectionOptions eh opts), cies := [], log := [] } (by simp [CacheOk])
  have hin : inputs { eh with entries := fun _ => eh.entries opts.bases } opts.bases
      = inputs eh opts.bases := rfl
  rw [hin] at heq
  have hlog : dwarf2sframeLog dbg eh opts =
      (convertInputs dbg opts (inputs eh opts.bases) (SFrameBuilder.new (sectionOptions eh opts)) []).bind fun
      | .error e => .ok (.error e)
      | .ok (b, log) =>
        (if opts.mergeFdes then b.mergeAdjacentFdes dbg else .ok b).bind fun sframe =>
        .ok (.ok (sframe, log)) := by
    rw [← heq]
    unfold dwarf2sframeLog
    generalize convertEntries dbg opts eh _ _ = r
    rcases r with (e | st) | p | _ <;> rfl
  rw [hlog]
  rcases inputs_cases dbg (sectionOptions eh opts) opts hfp (inputs eh opts.bases) with
    ⟨fdes, hx, hc⟩ | ⟨fdes, x, rest, hx, hc, h⟩
  · refine .inl ⟨fdes, hx, hc, ?_⟩
    have hp := convertInputs_prefix (dbg := dbg) (b := SFrameBuilder.new (sectionOptions eh opts)) [] [] hfp' hc
    rw [List.append_nil] at hp
    rw [hx, hp]
    simp only [convertInputs, Rust.bind_ok, List.nil_append]
    have hm : (if opts.mergeFdes then
        ((SFrameBuilder.new (sectionOptions eh opts)).more opts fdes).mergeAdjacentFdes dbg
        else .ok ((SFrameBuilder.new (sectionOptions eh opts)).more opts fdes))
        = Rust.ok (outputOf (sectionOptions eh opts) opts fdes) := by
      by_cases hmf : opts.mergeFdes = true
      · rw [if_pos hmf]; exact output_merge hfp hc
      · rw [if_neg hmf]; rfl
    rw [hm]
    rfl
  · refine .inr ⟨fdes, x, rest, hx, hc, ?_⟩
    have hp := convertInputs_prefix (dbg := dbg) (b := SFrameBuilder.new (sectionOptions eh opts)) (x :: rest) [] hfp' hc
    rcases h with ⟨e, he⟩ | ⟨fde, rfl, he⟩
    · refine .inl ⟨e, he, ?_⟩
      rw [hx, hp, convertInputs_error (b := (SFrameBuilder.new (sectionOptions eh opts)).more opts fdes) rest _ hfp' he]
      rfl
    · refine .inr ⟨fde, rfl, he, ?_⟩
      obtain ⟨p, h⟩ := convertInputs_panics (b := (SFrameBuilder.new (sectionOptions eh opts)).more opts fdes)
        rest ([] ++ logFor opts fdes) hfp' he
      rw [hx, hp, h]
      exact ⟨p, rfl⟩

/-! ### Equivalences -/

section iffs
variable {dbg : Bool} {eh : EhFrame} {opts : Options}

theorem dwarf2sframe_eq_log (r : Rust (Except ConvError (SFrameBuilder × List Warning)))
    (h : dwarf2sframeLog dbg eh opts = r) :
    dwarf2sframe dbg eh opts = r.bind fun r => .ok (r.map Prod.fst) := by
  unfold dwarf2sframe; rw [h]

/-- The inputs before the first one that is not converted are determined. -/
theorem prefix_unique {xs : List (Except ConvError DwFde)} {fdes fdes' : List DwFde}
    {x x' : Except ConvError DwFde} {rest rest' : List (Except ConvError DwFde)}
    {P : DwFde → Prop} (h : xs = fdes.map .ok ++ x :: rest) (h' : xs = fdes'.map .ok ++ x' :: rest')
    (hp : ∀ f ∈ fdes, P f) (hp' : ∀ f ∈ fdes', P f)
    (hx : ∀ f, x = .ok f → ¬ P f) (hx' : ∀ f, x' = .ok f → ¬ P f) : fdes = fdes' ∧ x = x' := by
  induction fdes generalizing xs fdes' with
  | nil =>
    cases fdes' with
    | nil =>
      rw [h] at h'
      simp only [List.map_nil, List.nil_append, List.cons.injEq] at h'
      exact ⟨rfl, h'.1⟩
    | cons f fdes' =>
      rw [h] at h'
      simp only [List.map_nil, List.nil_append, List.map_cons, List.cons_append, List.cons.injEq] at h'
      exact absurd (hp' f (by simp)) (hx f h'.1)
  | cons f fdes ih =>
    cases fdes' with
    | nil =>
      rw [h] at h'
      simp only [List.map_nil, List.nil_append, List.map_cons, List.cons_append, List.cons.injEq] at h'
      exact absurd (hp f (by simp)) (hx' f h'.1.symm)
    | cons f' fdes' =>
      rw [h] at h'
      simp only [List.map_cons, List.cons_append, List.cons.injEq, Except.ok.injEq] at h'
      obtain ⟨h1, h2⟩ := h'
      subst h1
      have := ih (xs := fdes.map .ok ++ x :: rest) rfl h2 (fun g hg => hp g (List.mem_cons_of_mem _ hg))
        (fun g hg => hp' g (List.mem_cons_of_mem _ hg))
      exact ⟨by rw [this.1], this.2⟩

theorem convertible_not_fails {so opts fde e} (hfp : so.fixedFp = none)
    (h : Convertible so opts fde) : ¬ FdeFails dbg so opts fde e := by
  intro hf
  have h1 := convertFde_ok (dbg := dbg) (st := { sframe := SFrameBuilder.new so, cies := [], log := [] }) hfp h
  have h2 := convertFde_error (dbg := dbg) (st := { sframe := SFrameBuilder.new so, cies := [], log := [] }) hfp hf
  rw [h1] at h2
  cases h2

theorem convertible_not_panics {so opts fde} (hfp : so.fixedFp = none)
    (h : Convertible so opts fde) : ¬ FdePanics dbg so opts fde := by
  intro hf
  have h1 := convertFde_ok (dbg := dbg) (st := { sframe := SFrameBuilder.new so, cies := [], log := [] }) hfp h
  obtain ⟨p, h2⟩ := convertFde_panics (dbg := dbg) (st := { sframe := SFrameBuilder.new so, cies := [], log := [] }) hfp hf
  rw [h1] at h2
  cases h2

theorem fails_not_panics {so opts fde e} (hfp : so.fixedFp = none)
    (h : FdeFails dbg so opts fde e) : ¬ FdePanics dbg so opts fde := by
  intro hf
  have h1 := convertFde_error (dbg := dbg) (st := { sframe := SFrameBuilder.new so, cies := [], log := [] }) hfp h
  obtain ⟨p, h2⟩ := convertFde_panics (dbg := dbg) (st := { sframe := SFrameBuilder.new so, cies := [], log := [] }) hfp hf
  rw [h1] at h2
  cases h2

theorem fails_unique {so opts fde e e'} (hfp : so.fixedFp = none)
    (h : FdeFails dbg so opts fde e) (h' : FdeFails dbg so opts fde e') : e = e' := by
  have h1 := convertFde_error (dbg := dbg) (st := { sframe := SFrameBuilder.new so, cies := [], log := [] }) hfp h
  have h2 := convertFde_error (dbg := dbg) (st := { sframe := SFrameBuilder.new so, cies := [], log := [] }) hfp h'
  rw [h1] at h2
  cases h2
  rfl

theorem map_ok_inj {fdes fdes' : List DwFde}
    (h : (fdes.map .ok : List (Except ConvError DwFde)) = fdes'.map .ok) : fdes = fdes' :=
  (List.map_inj_right (fun _ _ h => by cases h; rfl)).1 h

theorem append_ne_map {fdes fdes' : List DwFde} {x : Except ConvError DwFde} {rest}
    {P : DwFde → Prop} (h : fdes'.map .ok = fdes.map .ok ++ x :: rest)
    (hx : ∀ f, x = .ok f → ¬ P f) : ¬ ∀ f ∈ fdes', P f := by
  intro hp
  have hm : x ∈ (fdes'.map .ok : List (Except ConvError DwFde)) := by rw [h]; simp
  obtain ⟨f, hf, rfl⟩ := List.mem_map.1 hm
  exact hx f rfl (hp f hf)

/-- Success. -/
theorem dwarf2sframe_ok_iff {b : SFrameBuilder} :
    dwarf2sframe dbg eh opts = .ok (.ok b) ↔
      ∃ fdes : List DwFde, inputs eh opts.bases = fdes.map .ok ∧
        (∀ fde ∈ fdes, Convertible (sectionOptions eh opts) opts fde) ∧
        b = outputOf (sectionOptions eh opts) opts fdes := by
  have hfp := sectionOptions_fp eh opts
  rcases dwarf2sframe_cases dbg eh opts with ⟨fdes, hx, hc, h⟩ | ⟨fdes, x, rest, hx, hc, h⟩
  · rw [dwarf2sframe_eq_log _ h]
    constructor
    · intro hh; cases hh; exact ⟨fdes, hx, hc, rfl⟩
    · rintro ⟨fdes', hx', _, rfl⟩
      rw [hx] at hx'
      rw [map_ok_inj hx']
      rfl
  · have hno : ∀ fdes' : List DwFde, inputs eh opts.bases = fdes'.map .ok →
        ¬ ∀ fde ∈ fdes', Convertible (sectionOptions eh opts) opts fde := by
      intro fdes' h'
      rw [h'] at hx
      refine append_ne_map hx ?_
      intro f hf hcf
      rcases h with ⟨e, he, _⟩ | ⟨fde, he, hp, _⟩
      · rcases he with he | ⟨fde, he, hff⟩
        · rw [he] at hf; cases hf
        · rw [he] at hf; cases hf
          exact convertible_not_fails hfp hcf hff
      · rw [he] at hf; cases hf
        exact convertible_not_panics hfp hcf hp
    constructor
    · intro hh
      rcases h with ⟨e, _, h⟩ | ⟨_, _, _, p, h⟩
      · rw [dwarf2sframe_eq_log _ h] at hh; cases hh
      · rw [dwarf2sframe_eq_log _ h] at hh; cases hh
    · rintro ⟨fdes', h', hc', _⟩
      exact absurd hc' (hno fdes' h')

/-- Errors. -/
theorem dwarf2sframe_error_iff {e : ConvError} :
    dwarf2sframe dbg eh opts = .ok (.error e) ↔
      ∃ (fdes : List DwFde) (x : _) (rest : _), inputs eh opts.bases = fdes.map .ok ++ x :: rest ∧
        (∀ fde ∈ fdes, Convertible (sectionOptions eh opts) opts fde) ∧
        Blame dbg (sectionOptions eh opts) opts x e := by
  have hfp := sectionOptions_fp eh opts
  have hblame : ∀ x e, Blame dbg (sectionOptions eh opts) opts x e →
      ∀ f, x = .ok f → ¬ Convertible (sectionOptions eh opts) opts f := by
    rintro x e hb f rfl hcf
    rcases hb with hb | ⟨f', hf', hb⟩
    · cases hb
    · cases hf'; exact convertible_not_fails hfp hcf hb
  rcases dwarf2sframe_cases dbg eh opts with ⟨fdes, hx, hc, h⟩ | ⟨fdes, x, rest, hx, hc, h⟩
  · rw [dwarf2sframe_eq_log _ h]
    constructor
    · intro hh; cases hh
    · rintro ⟨fdes', x, rest, hx', hc', hb⟩
      rw [hx] at hx'
      exact absurd hc (append_ne_map hx' (hblame x e hb))
  · rcases h with ⟨e', he, h⟩ | ⟨fde, he, hp, p, h⟩
    · rw [dwarf2sframe_eq_log _ h]
      constructor
      · intro hh; cases hh; exact ⟨fdes, x, rest, hx, hc, he⟩
      · rintro ⟨fdes', x', rest', hx', hc', hb⟩
        obtain ⟨_, rfl⟩ := prefix_unique hx hx' hc hc' (hblame x e' he) (hblame x' e hb)
        have : e' = e := by
          rcases he with he | ⟨f, hf, he⟩ <;> rcases hb with hb | ⟨f', hf', hb⟩
          · rw [he] at hb; cases hb; rfl
          · rw [he] at hf'; cases hf'
          · rw [hb] at hf; cases hf
          · rw [hf] at hf'; cases hf'
            exact fails_unique hfp he hb
        rw [this]
        rfl
    · rw [dwarf2sframe_eq_log _ h]
      constructor
      · intro hh; cases hh
      · rintro ⟨fdes', x', rest', hx', hc', hb⟩
        obtain ⟨_, rfl⟩ := prefix_unique hx hx' hc hc'
          (fun f hf hcf => by rw [he] at hf; cases hf; exact convertible_not_panics hfp hcf hp)
          (hblame x' e hb)
        rcases hb with hb | ⟨f, hf, hb⟩
        · rw [he] at hb; cases hb
        · rw [he] at hf; cases hf
          exact absurd hp (fails_not_panics hfp hb)

/-- Panics. -/
theorem dwarf2sframe_panics_iff :
    (dwarf2sframe dbg eh opts).Panics ↔
      ∃ (fdes : List DwFde) (fde : DwFde) (rest : _),
        inputs eh opts.bases = fdes.map .ok ++ .ok fde :: rest ∧
        (∀ fde ∈ fdes, Convertible (sectionOptions eh opts) opts fde) ∧
        FdePanics dbg (sectionOptions eh opts) opts fde := by
  have hfp := sectionOptions_fp eh opts
  constructor
  · rintro ⟨p, hp⟩
    rcases dwarf2sframe_cases dbg eh opts with ⟨fdes, hx, hc, h⟩ | ⟨fdes, x, rest, hx, hc, h⟩
    · rw [dwarf2sframe_eq_log _ h] at hp; cases hp
    · rcases h with ⟨e', he, h⟩ | ⟨fde, rfl, hf, _⟩
      · rw [dwarf2sframe_eq_log _ h] at hp; cases hp
      · exact ⟨fdes, fde, rest, hx, hc, hf⟩
  · rintro ⟨fdes, fde, rest, hx, hc, hp⟩
    rcases dwarf2sframe_cases dbg eh opts with ⟨fdes', hx', hc', h⟩ | ⟨fdes', x', rest', hx', hc', h⟩
    · rw [hx'] at hx
      refine absurd hc' (append_ne_map hx ?_)
      intro f hf hcf
      cases hf
      exact convertible_not_panics hfp hcf hp
    · rcases h with ⟨e', he, h⟩ | ⟨fde', rfl, hf, p, h⟩
      · obtain ⟨_, rfl⟩ := prefix_unique hx hx' hc hc'
          (fun f hf hcf => by cases hf; exact convertible_not_panics hfp hcf hp)
          (fun f hf hcf => by
            rcases he with he | ⟨f', hf', he⟩
            · rw [he] at hf; cases hf
            · rw [hf'] at hf; cases hf
              exact convertible_not_fails hfp hcf he)
        rcases he with he | ⟨f', hf', he⟩
        · cases he
        · cases hf'
          exact absurd hp (fails_not_panics hfp he)
      · rw [dwarf2sframe_eq_log _ h]
        exact ⟨p, rfl⟩

theorem dwarf2sframe_terminates : dwarf2sframe dbg eh opts ≠ .diverge := by
  rcases dwarf2sframe_cases dbg eh opts with ⟨fdes, hx, hc, h⟩ | ⟨fdes, x, rest, hx, hc, h⟩
  · rw [dwarf2sframe_eq_log _ h]; intro hh; cases hh
  · rcases h with ⟨e', he, h⟩ | ⟨fde, rfl, hf, p, h⟩ <;> rw [dwarf2sframe_eq_log _ h] <;> intro hh <;> cases hh

end iffs

end Verif
