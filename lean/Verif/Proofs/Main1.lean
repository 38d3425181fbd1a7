import Verif.Model.Main1
import Verif.Spec.Legacy
import Verif.Props.Convert3
/-!
# The legacy converter in closed form

It does what the newer one would do, without a fixed RA offset, on rows that are changed a little:
rows of width zero are widened, and rules for RBP that cannot be expressed are forgotten.
-/

namespace Verif
open Spec

/-- The row as the legacy tool takes it. -/
def tidy (row : DwRow) : DwRow :=
  { start := row.start
    end_ := if row.start = row.end_ then row.start + 1 else row.end_
    cfa := row.cfa
    registers := match row.register 6 with
      | .offset _ => row.registers
      | _ => (6, .undefined) :: row.registers }

/-- The function with its rows as the legacy tool takes them. -/
def tidyFde (fde : DwFde) : DwFde :=
  { fde with rows := fde.rows.map fun xs => xs.map (·.map tidy) }

theorem tidy_start (row : DwRow) : (tidy row).start = row.start := rfl

theorem tidy_live (row : DwRow) : (tidy row).start ≠ (tidy row).end_ := by
  unfold tidy
  simp only
  split
  · intro h
    have h := congrArg BitVec.toNat h
    rw [BitVec.toNat_add] at h
    have := row.start.isLt
    have h1 : (1 : U64).toNat = 1 := rfl
    omega
  · assumption

theorem live_tidy (rs : List DwRow) : live (rs.map tidy) = rs.map tidy := by
  unfold live
  rw [List.filter_eq_self]
  intro x hx
  obtain ⟨r, _, rfl⟩ := List.mem_map.1 hx
  simpa using tidy_live r

theorem tidy_fp (row : DwRow) : fpRules .amd64 (tidy row) = legacyFp row := by
  have h6 : (BitVec.ofNat 16 (fpNum .amd64)) = (6 : Reg) := rfl
  unfold fpRules legacyFp
  rw [h6]
  cases h : row.register 6 with
  | offset o =>
    have : (tidy row).register 6 = row.register 6 := by
      unfold tidy
      rw [h]
      exact h
    rw [this, h]
  | _ =>
    have : (tidy row).register 6 = .undefined := by
      unfold tidy
      rw [h]
      rfl
    rw [this]

theorem tidy_ra (row : DwRow) : raRules .amd64 (tidy row) = raRules .amd64 row := by
  have : (tidy row).register 16 = row.register 16 := by
    unfold tidy
    cases h : row.register 6 <;> rfl
  have h16 : (BitVec.ofNat 16 (raNum .amd64)) = (16 : Reg) := rfl
  unfold raRules
  rw [h16, this]

theorem tidy_translate (row : DwRow) : translate .amd64 (tidy row) = legacyTranslate row := by
  unfold translate legacyTranslate
  rw [tidy_fp, tidy_ra]
  rfl

theorem rowsOf_tidy (fde : DwFde) : rowsOf (tidyFde fde) = (rowsOf fde).map tidy := by
  unfold rowsOf tidyFde
  cases fde.rows with
  | error e => rfl
  | ok xs =>
    show (xs.map (·.map tidy)).filterMap Except.toOption = (xs.filterMap Except.toOption).map tidy
    induction xs with
    | nil => rfl
    | cons x xs ih =>
      cases x with
      | error e => exact ih
      | ok r => exact congrArg (tidy r :: ·) ih

/-! ### Printing -/

theorem dumpExpression_ok_iff (e : Expr) : dumpExpression e = .ok () ↔ Decodable e := by
  induction e with
  | nil => simp [dumpExpression, Decodable]
  | cons x e ih =>
    cases x with
    | error g => simp [dumpExpression, Decodable]
    | ok u => simpa [dumpExpression, Decodable] using ih

theorem formatRule_cases (rule : RegRule) :
    (formatRule rule = .ok () ∧ ∀ e, rule = .expression e → Decodable e) ∨
    (formatRule rule = .panic .explicit ∧ ∃ e, rule = .expression e ∧ ¬ Decodable e) := by
  cases rule with
  | expression e =>
    unfold formatRule
    simp only
    cases h : dumpExpression e with
    | error g =>
      refine .inr ⟨rfl, e, rfl, fun hd => ?_⟩
      rw [(dumpExpression_ok_iff e).2 hd] at h
      cases h
    | ok u => exact .inl ⟨rfl, fun _ he => by cases he; exact (dumpExpression_ok_iff e).1 h⟩
  | _ => exact .inl ⟨rfl, nofun⟩

theorem printRegisters_cases (rs : List (Reg × RegRule)) :
    (printRegisters rs = .ok () ∧ ∀ x ∈ rs, ∀ e, x.2 = .expression e → Decodable e) ∨
    (printRegisters rs = .panic .explicit ∧ ∃ x ∈ rs, ∃ e, x.2 = .expression e ∧ ¬ Decodable e) := by
  induction rs with
  | nil => exact .inl ⟨rfl, nofun⟩
  | cons x rs ih =>
    obtain ⟨r, rule⟩ := x
    unfold printRegisters
    rcases formatRule_cases rule with ⟨h, hd⟩ | ⟨h, hd⟩
    · rw [h, Rust.bind_ok]
      rcases ih with ⟨h', hd'⟩ | ⟨h', x, hx, hd'⟩
      · refine .inl ⟨h', fun x hx => ?_⟩
        rcases List.mem_cons.1 hx with rfl | hx
        · exact hd
        · exact hd' x hx
      · exact .inr ⟨h', x, List.mem_cons_of_mem _ hx, hd'⟩
    · rw [h]
      exact .inr ⟨rfl, _, List.mem_cons_self, hd⟩

theorem printRow_cases (row : DwRow) :
    (printRow row = .ok () ∧ Printable row) ∨ ((printRow row).Panics ∧ ¬ Printable row) := by
  unfold printRow
  cases hc : row.cfa with
  | registerAndOffset r o =>
    simp only [Rust.bind_ok]
    rcases printRegisters_cases row.registers with ⟨h, hd⟩ | ⟨h, x, hx, e, he, hd⟩
    · exact .inl ⟨h, by rw [hc]; exact nofun, hd⟩
    · exact .inr ⟨⟨_, h⟩, fun hp => hd (hp.2 x hx e he)⟩
  | expression e =>
    simp only
    cases hd : dumpExpression e with
    | error g =>
      refine .inr ⟨⟨_, rfl⟩, fun hp => ?_⟩
      rw [(dumpExpression_ok_iff e).2 (hp.1 e hc)] at hd
      cases hd
    | ok u =>
      simp only [Rust.bind_ok]
      have hd := (dumpExpression_ok_iff e).1 hd
      rcases printRegisters_cases row.registers with ⟨h, hd'⟩ | ⟨h, x, hx, e', he, hd'⟩
      · exact .inl ⟨h, by rw [hc]; exact fun _ he => by cases he; exact hd, hd'⟩
      · exact .inr ⟨⟨_, h⟩, fun hp => hd' (hp.2 x hx e' he)⟩

theorem mem_of_lookup {rs : List (Reg × RegRule)} {r : Reg} {rule : RegRule}
    (h : rs.lookup r = some rule) : (r, rule) ∈ rs := by
  induction rs with
  | nil => cases h
  | cons x rs ih =>
    obtain ⟨k, v⟩ := x
    rw [List.lookup_cons] at h
    by_cases hk : r = k
    · subst hk
      simp at h
      subst h
      exact List.mem_cons_self
    · rw [beq_eq_false_iff_ne.2 hk] at h
      exact List.mem_cons_of_mem _ (ih h)

theorem Spec.Printable.format {row : DwRow} (h : Printable row) (r : Reg) :
    formatRule (row.register r) = .ok () := by
  unfold DwRow.register
  cases hl : row.registers.lookup r with
  | none => rfl
  | some rule =>
    rcases formatRule_cases rule with ⟨h', _⟩ | ⟨_, e, he, hd⟩
    · exact h'
    · exact absurd (h.2 _ (mem_of_lookup hl) e he) hd

/-! ### One row -/

/-- What the legacy tool stores for the rules of a row. -/
def legacyStored (t : Rules) : BaseReg × FrameRowOffsets :=
  (t.base, { cfa := BitVec.ofInt 32 t.cfa, fp := t.fp.map (BitVec.ofInt 32), ra := some (BitVec.ofInt 32 t.ra) })

theorem legacyRaOf_eq {row : DwRow} (h : Printable row) :
    legacyRaOf row = .ok ((raRules .amd64 row).map (BitVec.ofInt 32)) := by
  have h16 : (BitVec.ofNat 16 (raNum .amd64)) = Reg.X86_64_RA := rfl
  have hf := h.format Reg.X86_64_RA
  unfold raRules legacyRaOf
  rw [h16]
  cases hr : row.register Reg.X86_64_RA with
  | offset o =>
    simp only [i32TryFromI64_eq]
    split <;> rfl
  | _ => rw [hr] at hf; simp only [hf]; rfl

theorem legacyFpOf_eq {row : DwRow} (h : Printable row) :
    legacyFpOf row = .ok ((legacyFp row).map fun v => v.map (BitVec.ofInt 32)) := by
  have hf := h.format Reg.X86_64_RBP
  unfold legacyFp legacyFpOf
  rw [show (6 : Reg) = Reg.X86_64_RBP from rfl]
  cases hr : row.register Reg.X86_64_RBP with
  | offset o =>
    simp only [i32TryFromI64_eq]
    split <;> rfl
  | undefined => rfl
  | _ => rw [hr] at hf; simp only [hf]; rfl

theorem legacyCfa_eq (row : DwRow) : cfaRules .amd64 row =
    (legacyCfa row).bind fun c => if Fits32 c.2.toInt then some (c.1, c.2.toInt) else none := by
  unfold cfaRules legacyCfa
  cases hc : row.cfa with
  | expression e => rfl
  | registerAndOffset reg off =>
    simp only [reg_sp_iff, reg_fp_iff]
    show _ = (if reg = Architecture.amd64.fp then some (BaseReg.fp, off)
      else if reg = Architecture.amd64.sp then some (.sp, off) else none).bind _
    by_cases h1 : reg = Architecture.amd64.fp
    · subst h1
      rw [if_pos rfl]
      by_cases hf : Fits32 off.toInt
      · simp [hf, Architecture.fp, Architecture.sp, Reg.X86_64_RBP, Reg.X86_64_RSP]
      · simp [hf]
    · rw [if_neg h1, if_neg h1]
      by_cases h2 : reg = Architecture.amd64.sp
      · simp only [h2, if_true]
        by_cases hf : Fits32 off.toInt <;> simp [hf]
      · simp [h2]

theorem legacyRules_eq {row : DwRow} (h : Printable row) :
    legacyRules row = .ok ((legacyTranslate row).map legacyStored) := by
  unfold legacyRules legacyTranslate
  rw [legacyFpOf_eq h, legacyRaOf_eq h, legacyCfa_eq]
  cases legacyCfa row with
  | none => rfl
  | some c =>
    simp only [i32TryFromI64_eq, Option.bind_some]
    by_cases hf : Fits32 c.2.toInt
    · simp only [if_pos hf]
      cases legacyFp row with
      | none => rfl
      | some fp => cases raRules .amd64 row <;> rfl
    · simp only [if_neg hf]
      rfl

/-! ### The rows of a function -/

theorem legacyOptions_fp : legacyOptions.fixedFp = none := rfl

theorem rowOf_tidy_some {fde : DwFde} {row : DwRow} {t : Rules} (h : legacyTranslate row = some t) :
    rowOf .amd64 fde (tidy row) = FrameRowBuilder.new (legacyStored t).1
      (BitVec.ofNat 32 (row.start.toNat - fde.initial.toNat)) (legacyStored t).2 := by
  unfold rowOf
  rw [tidy_translate, h]
  rfl

/-- Without a fixed RA offset, whether a row can be placed depends on its start only. -/
theorem clean_start {fde : DwFde} {rs : List DwRow} {r r' : DwRow} (h : r.start = r'.start)
    (hr : r.start ≠ r.end_) (hr' : r'.start ≠ r'.end_) :
    Clean legacyOptions .amd64 fde (rs ++ [r]) ↔ Clean legacyOptions .amd64 fde (rs ++ [r']) := by
  rw [clean_live hr, clean_live hr', h]
  have : Placed legacyOptions .amd64 fde r ↔ Placed legacyOptions .amd64 fde r' := by
    constructor <;> rintro ⟨h1, h2, h3, _⟩
    · rw [h] at h1 h2 h3; exact ⟨h1, h2, h3, nofun⟩
    · rw [← h] at h1 h2 h3; exact ⟨h1, h2, h3, nofun⟩
  rw [this]

/-- Adding a row: as the newer tool would, except that a row that cannot be added is an error. -/
theorem legacyRow_cases {fde : DwFde} {pre : List DwRow} {row : DwRow}
    (hp : Printable row) (hg : Good legacyOptions .amd64 fde pre) (hlen : fde.len.toNat ≤ i32Max)
    (hn : Near fde row) :
    (Good legacyOptions .amd64 fde (pre ++ [tidy row]) ∧
      legacyRow (BitVec.ofNat 32 (row.start.toNat - fde.initial.toNat)) row (built legacyOptions .amd64 fde pre)
        = .ok (.ok (built legacyOptions .amd64 fde (pre ++ [tidy row])))) ∨
    (¬ Clean legacyOptions .amd64 fde (pre ++ [tidy row]) ∧ ∃ e,
      legacyRow (BitVec.ofNat 32 (row.start.toNat - fde.initial.toNat)) row (built legacyOptions .amd64 fde pre)
        = .ok (.error e)) := by
  have hn' : Near fde (tidy row) := hn
  have hb := built_row hg legacyOptions_fp hlen (tidy_live row) hn'
  unfold legacyRow
  rw [legacyRules_eq hp, Rust.bind_ok]
  cases ht : legacyTranslate row with
  | none =>
    rw [rowOf_none (by rw [tidy_translate, ht])] at hb
    simp only [Option.map_none]
    rcases hb with ⟨h1, h2⟩ | ⟨h1, e, h2⟩
    · exact .inl ⟨h1, congrArg Rust.ok h2⟩
    · exact .inr ⟨h1, e, congrArg Rust.ok h2⟩
  | some t =>
    rw [rowOf_tidy_some ht] at hb
    simp only [Option.map_some]
    rcases hb with ⟨h1, h2⟩ | ⟨h1, e, h2⟩
    · refine .inl ⟨h1, ?_⟩
      simp only [h2]
    · refine .inr ⟨h1, ?_⟩
      simp only [h2]
      -- the second attempt fails like the first
      have hz : ({ tidy row with cfa := .expression [] } : DwRow).start
          ≠ ({ tidy row with cfa := .expression [] } : DwRow).end_ := tidy_live row
      have hb' := built_row (r := { tidy row with cfa := .expression [] }) hg legacyOptions_fp hlen hz hn
      rcases hb' with ⟨h3, _⟩ | ⟨_, e', h4⟩
      · exact absurd ((clean_start (r := { tidy row with cfa := .expression [] }) (r' := tidy row) rfl hz (tidy_live row)).1 h3.clean) h1
      · rw [rowOf_none rfl] at h4
        exact ⟨e', congrArg Rust.ok h4⟩

/-- The start of a row. -/
theorem legacyRows_cons (dbg : Bool) (fde : DwFde) (row : DwRow) (xs : List (Except GErr DwRow))
    (sfde : FuncDescBuilder) (hi : fde.initial.toNat ≤ i32Max) :
    (Near fde row ∧ legacyRows dbg fde (.ok row :: xs) sfde =
      (printRow row).bind fun _ =>
        (legacyRow (BitVec.ofNat 32 (row.start.toNat - fde.initial.toNat)) row sfde).bind fun
        | .error e => .ok (.error (.row e))
        | .ok sfde => legacyRows dbg fde xs sfde) ∨
    (¬ Near fde row ∧ ∀ b, legacyRows dbg fde (.ok row :: xs) sfde ≠ .ok (.ok b)) := by
  have hs := rowStart_cases dbg fde row hi
  unfold rowStart at hs
  rw [legacyRows]
  cases hd : subU64 dbg row.start fde.initial with
  | panic p =>
    rw [hd] at hs
    rcases hs with ⟨_, _, h⟩ | ⟨h, _⟩ | ⟨h, _⟩
    · exact .inr ⟨h, nofun⟩
    · cases h
    · cases h
  | diverge =>
    rw [hd] at hs
    rcases hs with ⟨h, _⟩ | ⟨h, _⟩ | ⟨h, _⟩ <;> cases h
  | ok d =>
    rw [hd] at hs
    simp only [Rust.bind_ok] at hs ⊢
    cases hu : u32TryFromU64 d with
    | none =>
      simp only [hu] at hs
      rcases hs with ⟨h, _⟩ | ⟨_, h, _⟩ | ⟨h, _⟩
      · cases h
      · exact .inr ⟨h, nofun⟩
      · cases h
    | some start =>
      simp only [hu] at hs
      by_cases hlt : start.toNat < i32Max
      · simp only [if_pos hlt] at hs ⊢
        rcases hs with ⟨h, _⟩ | ⟨h, _⟩ | ⟨h, hn⟩
        · cases h
        · cases h
        · cases h
          exact .inl ⟨hn, rfl⟩
      · simp only [if_neg hlt] at hs ⊢
        rcases hs with ⟨h, _⟩ | ⟨_, h, _⟩ | ⟨h, _⟩
        · cases h
        · exact .inr ⟨h, nofun⟩
        · cases h

theorem legacyRows_iff {dbg : Bool} {fde : DwFde} {pre : List DwRow} (xs : List (Except GErr DwRow))
    (hi : fde.initial.toNat ≤ i32Max) (hlen : fde.len.toNat ≤ i32Max)
    (hg : Good legacyOptions .amd64 fde pre) (f : FuncDescBuilder) :
    legacyRows dbg fde xs (built legacyOptions .amd64 fde pre) = .ok (.ok f) ↔
      ∃ rs : List DwRow, xs = rs.map .ok ∧ (∀ r ∈ rs, Printable r) ∧
        Clean legacyOptions .amd64 fde (pre ++ rs.map tidy) ∧
        f = built legacyOptions .amd64 fde (pre ++ rs.map tidy) := by
  induction xs generalizing pre with
  | nil =>
    constructor
    · intro h
      cases h
      exact ⟨[], rfl, by simp, by simpa using hg.clean, by simp⟩
    · rintro ⟨rs, h, _, _, rfl⟩
      have : rs = [] := by simpa using h.symm
      subst this
      simp [legacyRows]
  | cons x xs ih =>
    cases x with
    | error e =>
      constructor
      · intro h; cases h
      · rintro ⟨rs, h, _⟩
        cases rs <;> cases h
    | ok row =>
      rcases legacyRows_cons dbg fde row xs (built legacyOptions .amd64 fde pre) hi with ⟨hn, h⟩ | ⟨hn, h⟩
      · rw [h]
        rcases printRow_cases row with ⟨h1, hp⟩ | ⟨⟨p, h1⟩, hp⟩
        · rw [h1, Rust.bind_ok]
          rcases legacyRow_cases hp hg hlen hn with ⟨hg', h2⟩ | ⟨hc, e, h2⟩
          · rw [h2, Rust.bind_ok]
            simp only
            rw [ih hg']
            constructor
            · rintro ⟨rs, rfl, hp', hc, rfl⟩
              exact ⟨row :: rs, rfl, by simpa using ⟨hp, hp'⟩, by simpa using hc, by simp⟩
            · rintro ⟨rs, hx, hp', hc, rfl⟩
              cases rs with
              | nil => cases hx
              | cons r rs =>
                cases hx
                exact ⟨rs, rfl, fun r hr => hp' r (List.mem_cons_of_mem _ hr), by simpa using hc, by simp⟩
          · rw [h2, Rust.bind_ok]
            constructor
            · intro h; cases h
            · rintro ⟨rs, hx, _, hc', _⟩
              cases rs with
              | nil => cases hx
              | cons r rs =>
                cases hx
                exact absurd (clean_prefix (rs' := rs.map tidy) (by simpa using hc')) hc
        · rw [h1]
          constructor
          · intro h; cases h
          · rintro ⟨rs, hx, hp', _⟩
            cases rs with
            | nil => cases hx
            | cons r rs =>
              cases hx
              exact absurd (hp' _ (by simp)) hp
      · constructor
        · intro h'; exact absurd h' (h f)
        · rintro ⟨rs, hx, _, hc, _⟩
          cases rs with
          | nil => cases hx
          | cons r rs =>
            cases hx
            have := (hc.placed (tidy row) (by
              rw [live_append, live_tidy]; simp)).near
            exact absurd this hn

/-! ### One function -/

/-- The options under which the newer tool would do the same. -/
def legacyLike (bases : Bases) : Options := { Options.new .amd64 bases with debugdump := true }

theorem clean_tidy {so : SFrameOptions} {arch : Architecture} {fde : DwFde} {rs : List DwRow} :
    Clean so arch (tidyFde fde) rs ↔ Clean so arch fde rs :=
  ⟨fun h => ⟨fun r hr => ⟨(h.placed r hr).after, (h.placed r hr).inside, (h.placed r hr).small, (h.placed r hr).ra⟩, h.distinct⟩,
    fun h => ⟨fun r hr => ⟨(h.placed r hr).after, (h.placed r hr).inside, (h.placed r hr).small, (h.placed r hr).ra⟩, h.distinct⟩⟩

theorem legacyConvertible_iff (bases : Bases) (fde : DwFde) :
    LegacyConvertible fde ↔ Convertible legacyOptions (legacyLike bases) (tidyFde fde) ∧
      ∀ r ∈ rowsOf fde, Printable r := by
  have hrows : (tidyFde fde).rows = .ok ((rowsOf (tidyFde fde)).map .ok) ↔
      fde.rows = .ok ((rowsOf fde).map .ok) := by
    rw [rowsOf_tidy]
    unfold tidyFde rowsOf
    cases fde.rows with
    | error e => exact ⟨nofun, nofun⟩
    | ok xs =>
      simp only [Except.map, Except.ok.injEq]
      induction xs with
      | nil => simp
      | cons x xs ih =>
        cases x with
        | error e =>
          refine ⟨fun h => ?_, fun h => ?_⟩
          · have := congrArg (fun l => l.head?) h
            simp only [List.map_cons, List.filterMap_cons, Except.toOption, List.map_map, List.head?_cons, List.head?_map] at this
            cases hh : (xs.filterMap Except.toOption).head? <;> rw [show (List.filterMap Except.toOption xs).head? = _ from hh] at this <;> simp at this
          · have := congrArg (fun l => l.head?) h
            simp only [List.filterMap_cons, Except.toOption, List.head?_cons, List.head?_map] at this
            cases hh : (xs.filterMap Except.toOption).head? <;> rw [show (List.filterMap Except.toOption xs).head? = _ from hh] at this <;> simp at this
        | ok r =>
          simp only [List.map_cons, List.filterMap_cons, Except.toOption, List.cons.injEq, true_and]
          exact ih
  constructor
  · rintro ⟨h1, h2, h3, h4, h5, h6, h7⟩
    refine ⟨⟨fun _ => h3, h1, h2, hrows.2 h4, ?_⟩, h5⟩
    rw [rowsOf_tidy]
    refine ⟨?_, ?_⟩
    · rw [live_tidy]
      intro r hr
      obtain ⟨r, hr', rfl⟩ := List.mem_map.1 hr
      obtain ⟨a, b, c⟩ := h6 r hr'
      exact ⟨a, b, c, nofun⟩
    · rw [live_tidy, List.pairwise_map]
      exact h7
  · rintro ⟨⟨h3, h1, h2, h4, h5⟩, h6⟩
    rw [rowsOf_tidy] at h5
    obtain ⟨h5, h7⟩ := h5
    rw [live_tidy] at h5 h7
    rw [List.pairwise_map] at h7
    refine ⟨h1, h2, h3 rfl, hrows.1 h4, h6, ?_, h7⟩
    intro r hr
    have := h5 (tidy r) (List.mem_map_of_mem hr)
    exact ⟨this.after, this.inside, this.small⟩

theorem legacyFde_iff {dbg : Bool} {b b' : SFrameBuilder} {fde : DwFde} (bases : Bases)
    (hb : b.options = legacyOptions) :
    legacyFde dbg b fde = .ok (.ok b') ↔
      LegacyConvertible fde ∧ b' = b.more (legacyLike bases) [tidyFde fde] := by
  unfold legacyFde
  by_cases hi : fde.initial.toNat > i32Max
  · rw [if_pos hi]
    refine ⟨nofun, fun h => ?_⟩
    have := h.1.start
    unfold i32Max at hi
    omega
  rw [if_neg hi]
  by_cases hl : fde.len.toNat > i32Max
  · rw [if_pos hl]
    refine ⟨nofun, fun h => ?_⟩
    have := h.1.len
    unfold i32Max at hl
    omega
  rw [if_neg hl]
  simp only
  cases hr : fde.rows with
  | error e =>
    refine ⟨nofun, fun h => ?_⟩
    have := h.1.rows
    rw [hr] at this
    cases this
  | ok xs =>
    simp only
    have hi' : fde.initial.toNat ≤ i32Max := by omega
    have hl' : fde.len.toNat ≤ i32Max := by omega
    rcases addU64_cases dbg fde.initial fde.len with ⟨_, _, h⟩ | ⟨h, _⟩
    · unfold i32Max at hi' hl'; omega
    rw [h, Rust.bind_ok, dump_eq]
    cases hd : dumpError fde with
    | some g =>
      refine ⟨nofun, fun h => ?_⟩
      have := h.1.dump
      rw [hd] at this
      cases this
    | none =>
      simp only
      rw [hb, FuncDescBuilder.new_eq_built legacyOptions .amd64 fde]
      have hrow := legacyRows_iff (dbg := dbg) xs hi' hl' (good_nil legacyOptions .amd64 fde)
      constructor
      · intro h
        cases hx : legacyRows dbg fde xs (built legacyOptions .amd64 fde []) with
        | panic p => rw [hx] at h; cases h
        | diverge => rw [hx] at h; cases h
        | ok x =>
          cases x with
          | error e => rw [hx] at h; cases h
          | ok f =>
            obtain ⟨rs, hxs, hp, hc, hf⟩ := (hrow f).1 hx
            have hrs : rowsOf fde = rs := rowsOf_map (by rw [hr, hxs])
            have hlc : LegacyConvertible fde := by
              rw [legacyConvertible_iff bases]
              refine ⟨⟨fun _ => hd, hi', hl', ?_, ?_⟩, by rw [hrs]; exact hp⟩
              · rw [rowsOf_tidy, hrs]
                unfold tidyFde
                rw [hr, hxs]
                simp [Except.map]
              · rw [rowsOf_tidy, hrs]
                exact clean_tidy.2 hc
            refine ⟨hlc, ?_⟩
            have hcv := ((legacyConvertible_iff bases fde).1 hlc).1
            have hg := (good_iff legacyOptions_fp hcv.start hcv.len).2 hcv.clean
            have hm : f.mergeAdjacentFres = .ok (fnFor legacyOptions (legacyLike bases) (tidyFde fde)) := by
              rw [hf, List.nil_append, ← hrs, ← rowsOf_tidy]
              exact mergeAdjacentFres_eq hg.inv
            rw [hx, Rust.bind_ok] at h
            simp only at h
            rw [hm, Rust.bind_ok] at h
            have hopt : b.options = (fnFor legacyOptions (legacyLike bases) (tidyFde fde)).options := by
              rw [(fnFor_fields ..).1, hb]
            unfold SFrameBuilder.fde at h
            rw [if_pos hopt] at h
            simp only [Rust.bind_ok] at h
            cases h
            unfold SFrameBuilder.more addAll
            rw [hb]
            rfl
      · rintro ⟨hlc, rfl⟩
        have hcv := ((legacyConvertible_iff bases fde).1 hlc).1
        have hg := (good_iff legacyOptions_fp hcv.start hcv.len).2 hcv.clean
        have hx : legacyRows dbg fde xs (built legacyOptions .amd64 fde [])
            = .ok (.ok (built legacyOptions .amd64 fde (rowsOf (tidyFde fde)))) := by
          rw [hrow]
          refine ⟨rowsOf fde, ?_, hlc.printable, ?_, ?_⟩
          · have := hlc.rows
            rw [hr] at this
            cases this
            rfl
          · have := hcv.clean
            rw [rowsOf_tidy] at this
            exact clean_tidy.1 this
          · rw [rowsOf_tidy]; rfl
        have hm : (built legacyOptions .amd64 fde (rowsOf (tidyFde fde))).mergeAdjacentFres
            = .ok (fnFor legacyOptions (legacyLike bases) (tidyFde fde)) := mergeAdjacentFres_eq hg.inv
        rw [hx, Rust.bind_ok]
        simp only
        rw [hm, Rust.bind_ok]
        have hopt : b.options = (fnFor legacyOptions (legacyLike bases) (tidyFde fde)).options := by
          rw [(fnFor_fields ..).1, hb]
        unfold SFrameBuilder.fde
        rw [if_pos hopt]
        unfold SFrameBuilder.more addAll
        rw [hb]
        rfl

/-! ### The section -/

theorem more_more (b : SFrameBuilder) (opts : Options) (f : DwFde) (fs : List DwFde) :
    (b.more opts [f]).more opts fs = b.more opts (f :: fs) := rfl

theorem legacyEntries_iff {dbg : Bool} {eh : EhFrame} {bases : Bases} (es : List (Except GErr Entry))
    (cies : List (Nat × Except GErr Cie)) (b b' : SFrameBuilder)
    (hc : CacheOk (Options.new .amd64 bases) eh cies) (hb : b.options = legacyOptions) :
    legacyEntries dbg eh bases es cies b = .ok (.ok b') ↔
      ∃ fdes : List DwFde, inputs { eh with entries := fun _ => es } bases = fdes.map .ok ∧
        (∀ fde ∈ fdes, LegacyConvertible fde) ∧ b' = b.more (legacyLike bases) (fdes.map tidyFde) := by
  induction es generalizing cies b with
  | nil =>
    constructor
    · intro h; cases h; exact ⟨[], rfl, by simp, rfl⟩
    · rintro ⟨fdes, h, _, rfl⟩
      have : fdes = [] := by simpa [inputs] using h.symm
      subst this
      rfl
  | cons x es ih =>
    cases x with
    | error e =>
      refine ⟨nofun, ?_⟩
      rintro ⟨fdes, h, _⟩
      cases fdes <;> cases h
    | ok x =>
      cases x with
      | cie => exact ih cies b hc hb
      | fde off parse =>
        obtain ⟨h1, h2⟩ := lookupCie_ok hc off
        have h1 : (lookupCie (Options.new .amd64 bases) eh cies off).1 = eh.cieFromOffset bases off := h1
        rw [legacyEntries, h1]
        have hin : inputs { eh with entries := fun _ => .ok (.fde off parse) :: es } bases =
            (match parse (eh.cieFromOffset bases off) with
            | .error e => Except.error (.invalidDwarfFde e)
            | .ok fde => .ok fde) :: inputs { eh with entries := fun _ => es } bases := by
          unfold inputs
          rw [List.filterMap_cons]
          simp only
          cases parse (eh.cieFromOffset bases off) <;> rfl
        rw [hin]
        cases parse (eh.cieFromOffset bases off) with
        | error e =>
          refine ⟨nofun, ?_⟩
          rintro ⟨fdes, h, _⟩
          cases fdes <;> cases h
        | ok fde =>
          simp only
          have hf := fun b1 => legacyFde_iff (dbg := dbg) (b' := b1) (fde := fde) bases hb
          constructor
          · intro h
            cases hx : legacyFde dbg b fde with
            | panic p => rw [hx] at h; cases h
            | diverge => rw [hx] at h; cases h
            | ok x =>
              cases x with
              | error e => rw [hx] at h; cases h
              | ok b1 =>
                obtain ⟨hlc, rfl⟩ := (hf b1).1 hx
                rw [hx, Rust.bind_ok] at h
                obtain ⟨fdes, h3, h4, rfl⟩ := (ih _ (b.more (legacyLike bases) [tidyFde fde]) h2 hb).1 h
                exact ⟨fde :: fdes, by rw [h3]; rfl, by simpa using ⟨hlc, h4⟩, rfl⟩
          · rintro ⟨fdes, h3, h4, rfl⟩
            cases fdes with
            | nil => cases h3
            | cons g fdes =>
              rw [List.map_cons, List.cons.injEq] at h3
              obtain ⟨h3, h5⟩ := h3
              cases h3
              rw [(hf _).2 ⟨h4 fde (by simp), rfl⟩, Rust.bind_ok]
              exact (ih _ (b.more (legacyLike bases) [tidyFde fde]) h2 hb).2 ⟨fdes, h5, fun f hf => h4 f (List.mem_cons_of_mem _ hf), rfl⟩

/-- The legacy conversion in closed form. -/
theorem legacyConvert_iff {dbg : Bool} {eh : EhFrame} {bases : Bases} {b : SFrameBuilder} :
    legacyConvert dbg eh bases = .ok (.ok b) ↔
      ∃ fdes : List DwFde, inputs eh bases = fdes.map .ok ∧ (∀ fde ∈ fdes, LegacyConvertible fde) ∧
        b = outputOf legacyOptions (legacyLike bases) (fdes.map tidyFde) := by
  have he := fun b' => legacyEntries_iff (dbg := dbg) (eh := eh) (bases := bases) (eh.entries bases) []
    (SFrameBuilder.new legacyOptions) b' (by simp [CacheOk]) rfl
  have hin : inputs { eh with entries := fun _ => eh.entries bases } bases = inputs eh bases := rfl
  rw [hin] at he
  have hmerge : ∀ fdes : List DwFde, (∀ fde ∈ fdes, LegacyConvertible fde) →
      (outputOf legacyOptions (legacyLike bases) (fdes.map tidyFde)).mergeAdjacentFdes dbg
        = .ok (outputOf legacyOptions (legacyLike bases) (fdes.map tidyFde)) := by
    intro fdes h
    refine output_merge legacyOptions_fp fun fde hf => ?_
    obtain ⟨g, hg, rfl⟩ := List.mem_map.1 hf
    exact ((legacyConvertible_iff bases g).1 (h g hg)).1
  unfold legacyConvert
  constructor
  · intro h
    cases hx : legacyEntries dbg eh bases (eh.entries bases) [] (SFrameBuilder.new legacyOptions) with
    | panic p => rw [hx] at h; cases h
    | diverge => rw [hx] at h; cases h
    | ok x =>
      cases x with
      | error e => rw [hx] at h; cases h
      | ok b1 =>
        obtain ⟨fdes, h1, h2, rfl⟩ := (he b1).1 hx
        rw [hx, Rust.bind_ok] at h
        have := hmerge fdes h2
        unfold outputOf at this
        simp only [this, Rust.bind_ok] at h
        cases h
        exact ⟨fdes, h1, h2, rfl⟩
  · rintro ⟨fdes, h1, h2, rfl⟩
    rw [(he _).2 ⟨fdes, h1, h2, rfl⟩, Rust.bind_ok]
    have := hmerge fdes h2
    unfold outputOf at this
    simp only [this, Rust.bind_ok]
    rfl

end Verif
