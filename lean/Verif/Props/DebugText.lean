import Verif.Proofs.DebugText
import Verif.Props.Debug
import Verif.Props.Report1b
import Verif.Props.Cfi
/-!
# The text of a section printed with `{:?}` and `{:#?}`: C111
-/

namespace Verif
open Spec

/-- What is assumed of the `Debug` instances of the `c_enum` crate: the text is a word or a tuple made of
words without characters of the layout, and tells the number. -/
structure Spec.EnumContract (t : EnumShown) : Prop where
  version : ∀ v, (t.version v).Plain
  versionInj : ∀ v w, t.version v = t.version w → v = w
  abi : ∀ v, (t.abi v).Plain
  abiInj : ∀ v w, t.abi v = t.abi w → v = w

namespace DbgVal

theorem digit_plain {c : Char} (h : c.isDigit = true) : ¬ Structural c := by
  intro hs
  unfold Structural at hs
  rcases hs with rfl | rfl | rfl | rfl | rfl | rfl | rfl | rfl | rfl <;> exact absurd h (by decide)

theorem word_plain {s : String} (h : ∀ c ∈ s.toList, ¬ Structural c) (hs : s.toList ≠ []) :
    (DbgVal.word s).Plain := by
  unfold word
  rw [DbgVal.Plain]
  refine ⟨h, fun _ => rfl, (by simp), (by simp), ⟨by simp, fun he => ?_⟩, by rw [DbgParts.Plain]; trivial⟩
  subst he
  exact absurd rfl hs

theorem one_plain {n : String} {v : DbgVal} (h : ∀ c ∈ n.toList, ¬ Structural c) (hn : n ≠ "") (hv : v.Plain) :
    (DbgVal.one n v).Plain := by
  unfold one
  rw [DbgVal.Plain]
  refine ⟨h, by simp, by simp, by simp, ⟨by simp, fun he => absurd he hn⟩, ?_⟩
  rw [DbgParts.Plain]
  exact ⟨by simp, fun _ => rfl, hv, by rw [DbgParts.Plain]; trivial, by simp⟩

theorem ofList_plain : ∀ {vs : List DbgVal}, (∀ v ∈ vs, v.Plain) → (DbgParts.ofList vs).Plain .list
  | [], _ => by rw [DbgParts.ofList, DbgParts.Plain]; trivial
  | v :: vs, h => by
    rw [DbgParts.ofList, DbgParts.Plain]
    exact ⟨by simp, fun _ => rfl, h v (by simp), ofList_plain fun x hx => h x (by simp [hx]), by simp⟩

theorem seq_plain {vs : List DbgVal} (h : ∀ v ∈ vs, v.Plain) : (DbgVal.seq vs).Plain := by
  unfold seq
  rw [DbgVal.Plain]
  exact ⟨by simp, by simp, by simp, by simp, by simp, ofList_plain h⟩

theorem ofList_inj : ∀ {vs ws : List DbgVal}, DbgParts.ofList vs = DbgParts.ofList ws → vs = ws
  | [], [], _ => rfl
  | [], _ :: _, h => by simp [DbgParts.ofList] at h
  | _ :: _, [], h => by simp [DbgParts.ofList] at h
  | v :: vs, w :: ws, h => by
    simp only [DbgParts.ofList, DbgParts.cons.injEq, true_and] at h
    rw [h.1, ofList_inj h.2]

theorem map_inj {α : Type} {f : α → DbgVal} (hf : ∀ x y, f x = f y → x = y) :
    ∀ {xs ys : List α}, xs.map f = ys.map f → xs = ys
  | [], [], _ => rfl
  | [], _ :: _, h => by simp at h
  | _ :: _, [], h => by simp at h
  | x :: xs, y :: ys, h => by
    simp only [List.map_cons, List.cons.injEq] at h
    rw [hf _ _ h.1, map_inj hf h.2]

theorem seq_inj {α : Type} {f : α → DbgVal} (hf : ∀ x y, f x = f y → x = y) {xs ys : List α}
    (h : DbgVal.seq (xs.map f) = DbgVal.seq (ys.map f)) : xs = ys := by
  unfold seq at h
  simp only [DbgVal.mk.injEq, true_and] at h
  exact map_inj hf (ofList_inj h)

theorem word_inj {s t : String} (h : DbgVal.word s = DbgVal.word t) : s = t := by
  unfold word at h
  simpa using h

theorem one_inj {n m : String} {v w : DbgVal} (h : DbgVal.one n v = DbgVal.one m w) : n = m ∧ v = w := by
  unfold one at h
  simpa using h

theorem unsigned_plain {n : Nat} (x : BitVec n) : (DbgVal.unsigned x).Plain :=
  word_plain (fun c hc => digit_plain (fmtNat_digits _ c hc)) (fmtNat_ne_nil _)

theorem unsigned_inj {n : Nat} {x y : BitVec n} (h : DbgVal.unsigned x = DbgVal.unsigned y) : x = y :=
  BitVec.eq_of_toNat_eq (fmtNat_inj (word_inj h))

theorem signed_plain {n : Nat} (x : BitVec n) : (DbgVal.signed x).Plain := by
  unfold signed fmtInt
  split
  · refine word_plain (fun c hc => ?_) ?_
    · rw [String.toList_append, List.mem_append] at hc
      rcases hc with hc | hc
      · simp at hc; subst hc; decide
      · exact digit_plain (fmtNat_digits _ c hc)
    · simp [String.toList_append]
  · exact word_plain (fun c hc => digit_plain (fmtNat_digits _ c hc)) (fmtNat_ne_nil _)

theorem signed_inj {n : Nat} {x y : BitVec n} (h : DbgVal.signed x = DbgVal.signed y) : x = y :=
  fmtInt_inj (word_inj h)

/-- Every literal word is checked. -/
theorem lit_plain {s : String} (h : s.toList.all (fun c => decide (¬ Structural c)) = true)
    (hs : s.toList ≠ []) : (DbgVal.word s).Plain :=
  word_plain (fun c hc => by simpa using List.all_eq_true.mp h c hc) hs

theorem lit_one {s : String} {v : DbgVal} (h : s.toList.all (fun c => decide (¬ Structural c)) = true)
    (hs : s ≠ "") (hv : v.Plain) : (DbgVal.one s v).Plain :=
  one_plain (fun c hc => by simpa using List.all_eq_true.mp h c hc) hs hv

theorem fdeType_plain (t : RawFdeType) : (DbgVal.fdeType t).Plain := by
  cases t <;> exact lit_plain (by decide +kernel) (by decide +kernel)

theorem freType_plain (t : FreType) : (DbgVal.freType t).Plain := by
  cases t <;> exact lit_plain (by decide +kernel) (by decide +kernel)

theorem freOffset_plain (t : FreOffset) : (DbgVal.freOffset t).Plain := by
  cases t <;> exact lit_plain (by decide +kernel) (by decide +kernel)

theorem pauthKey_plain (t : PauthKey) : (DbgVal.pauthKey t).Plain := by
  cases t <;> exact lit_plain (by decide +kernel) (by decide +kernel)

theorem baseReg_plain (t : BaseReg) : (DbgVal.baseReg t).Plain := by
  cases t <;> exact lit_plain (by decide +kernel) (by decide +kernel)

theorem bool_plain (b : Bool) : (DbgVal.word (fmtBool b)).Plain := by
  cases b <;> exact lit_plain (by decide +kernel) (by decide +kernel)

theorem readError_plain (e : ReadError) : (DbgVal.readError e).Plain := by
  cases e with
  | unsupportedVersion v => exact lit_one (by decide +kernel) (by decide +kernel) (unsigned_plain _)
  | unsupportedFdeType t => exact lit_one (by decide +kernel) (by decide +kernel) (fdeType_plain _)
  | unsupportedFreType t => exact lit_one (by decide +kernel) (by decide +kernel) (freType_plain _)
  | unsupportedFreOffset t => exact lit_one (by decide +kernel) (by decide +kernel) (freOffset_plain _)
  | invalidFreOffsetCount n => exact lit_one (by decide +kernel) (by decide +kernel) (unsigned_plain _)
  | _ => exact lit_plain (by decide +kernel) (by decide +kernel)

theorem fdeType_inj {x y : RawFdeType} (h : DbgVal.fdeType x = DbgVal.fdeType y) : x = y := by
  cases x <;> cases y <;> first | rfl | exact absurd (word_inj h) (by decide +kernel)

theorem freType_inj {x y : FreType} (h : DbgVal.freType x = DbgVal.freType y) : x = y := by
  cases x <;> cases y <;> first | rfl | exact absurd (word_inj h) (by decide +kernel)

theorem freOffset_inj {x y : FreOffset} (h : DbgVal.freOffset x = DbgVal.freOffset y) : x = y := by
  cases x <;> cases y <;> first | rfl | exact absurd (word_inj h) (by decide +kernel)

theorem pauthKey_inj {x y : PauthKey} (h : DbgVal.pauthKey x = DbgVal.pauthKey y) : x = y := by
  cases x <;> cases y <;> first | rfl | exact absurd (word_inj h) (by decide +kernel)

theorem baseReg_inj {x y : BaseReg} (h : DbgVal.baseReg x = DbgVal.baseReg y) : x = y := by
  cases x <;> cases y <;> first | rfl | exact absurd (word_inj h) (by decide +kernel)

theorem word_ne_one {s n : String} {v : DbgVal} : DbgVal.word s ≠ DbgVal.one n v := by
  unfold word one; simp

theorem readError_inj {x y : ReadError} (h : DbgVal.readError x = DbgVal.readError y) : x = y := by
  cases x <;> cases y <;> first
    | rfl
    | exact absurd h word_ne_one
    | exact absurd h.symm word_ne_one
    | exact absurd (word_inj h) (by decide +kernel)
    | exact absurd (one_inj h).1 (by decide +kernel)
    | exact congrArg _ (unsigned_inj (one_inj h).2)
    | exact congrArg _ (fdeType_inj (one_inj h).2)
    | exact congrArg _ (freType_inj (one_inj h).2)
    | exact congrArg _ (freOffset_inj (one_inj h).2)

theorem option_plain {α : Type} {f : α → DbgVal} (hf : ∀ x, (f x).Plain) (x : Option α) : (DbgVal.option f x).Plain := by
  cases x with
  | none => exact lit_plain (by decide +kernel) (by decide +kernel)
  | some x => exact lit_one (by decide +kernel) (by decide +kernel) (hf x)

theorem option_inj {α : Type} {f : α → DbgVal} (hf : ∀ x y, f x = f y → x = y) {x y : Option α}
    (h : DbgVal.option f x = DbgVal.option f y) : x = y := by
  cases x <;> cases y <;> first
    | rfl
    | exact absurd h word_ne_one
    | exact absurd h.symm word_ne_one
    | exact congrArg _ (hf _ _ (one_inj h).2)

theorem result_plain {ε α : Type} {g : ε → DbgVal} {f : α → DbgVal} (hg : ∀ x, (g x).Plain) (hf : ∀ x, (f x).Plain)
    (x : Except ε α) : (DbgVal.result g f x).Plain := by
  cases x with
  | error e => exact lit_one (by decide +kernel) (by decide +kernel) (hg e)
  | ok x => exact lit_one (by decide +kernel) (by decide +kernel) (hf x)

theorem result_inj {ε α : Type} {g : ε → DbgVal} {f : α → DbgVal} (hg : ∀ x y, g x = g y → x = y)
    (hf : ∀ x y, f x = f y → x = y) {x y : Except ε α} (h : DbgVal.result g f x = DbgVal.result g f y) : x = y := by
  cases x <;> cases y <;> first
    | exact absurd (one_inj h).1 (by decide +kernel)
    | exact congrArg _ (hg _ _ (one_inj h).2)
    | exact congrArg _ (hf _ _ (one_inj h).2)

/-- A record with literal name and labels. -/
theorem record_plain {n : String} {ps : DbgParts} (h : n.toList.all (fun c => decide (¬ Structural c)) = true)
    (hn : n ≠ "") (hp : ps ≠ .nil) (hps : ps.Plain .record) : (DbgVal.mk .record n ps).Plain := by
  rw [DbgVal.Plain]
  exact ⟨fun c hc => by simpa using List.all_eq_true.mp h c hc, by simp, fun _ => hp, by simp,
    ⟨by simp, fun he => absurd he hn⟩, hps⟩

theorem cons_plain {l : String} {v : DbgVal} {ps : DbgParts}
    (h : l.toList.all (fun c => decide (c ≠ ':' ∧ ¬ Structural c)) = true) (hv : v.Plain)
    (hps : ps.Plain .record) : (DbgParts.cons l v ps).Plain .record := by
  rw [DbgParts.Plain]
  have h' : ∀ c ∈ l.toList, c ≠ ':' ∧ ¬ Structural c := fun c hc => by simpa using List.all_eq_true.mp h c hc
  exact ⟨fun hc => (h' _ hc).1 rfl, by simp, hv, hps, fun c hc => (h' c hc).2⟩

theorem nil_plain {k : DbgShape} : (DbgParts.nil).Plain k := by rw [DbgParts.Plain]; trivial

theorem preamble_plain {t : EnumShown} (ht : EnumContract t) (p : Preamble) : (DbgVal.preamble t p).Plain :=
  record_plain (by decide +kernel) (by decide +kernel) (by simp) <|
    cons_plain (by decide +kernel) (lit_one (by decide +kernel) (by decide +kernel) (unsigned_plain _)) <|
    cons_plain (by decide +kernel) (ht.version _) <|
    cons_plain (by decide +kernel) (lit_one (by decide +kernel) (by decide +kernel) (unsigned_plain _)) nil_plain

theorem preamble_inj {t : EnumShown} (ht : EnumContract t) {p q : Preamble}
    (h : DbgVal.preamble t p = DbgVal.preamble t q) : p = q := by
  obtain ⟨a, b, c⟩ := p
  obtain ⟨a', b', c'⟩ := q
  simp only [preamble, DbgVal.mk.injEq, DbgParts.cons.injEq, true_and, and_true] at h
  rw [unsigned_inj (one_inj h.1).2, ht.versionInj _ _ h.2.1, unsigned_inj (one_inj h.2.2).2]

theorem row_plain (r : RowDebug) : (DbgVal.row r).Plain :=
  record_plain (by decide +kernel) (by decide +kernel) (by simp) <|
    cons_plain (by decide +kernel) (unsigned_plain _) <|
    cons_plain (by decide +kernel) (baseReg_plain _) <|
    cons_plain (by decide +kernel) (bool_plain _) <|
    cons_plain (by decide +kernel) (seq_plain fun v hv => by
      obtain ⟨x, _, rfl⟩ := List.mem_map.mp hv; exact signed_plain x) nil_plain

theorem row_inj {r q : RowDebug} (h : DbgVal.row r = DbgVal.row q) : r = q := by
  obtain ⟨a, b, c, d⟩ := r
  obtain ⟨a', b', c', d'⟩ := q
  simp only [row, DbgVal.mk.injEq, DbgParts.cons.injEq, true_and, and_true] at h
  rw [unsigned_inj h.1, baseReg_inj h.2.1, fmtBool_inj (word_inj h.2.2.1),
    seq_inj (f := DbgVal.signed) (fun _ _ => signed_inj) h.2.2.2]

theorem altHex_plain (n : Nat) : (DbgVal.word (fmtAltHex n)).Plain := by
  refine word_plain (fun c hc => ?_) (by rw [fmtAltHex_toList]; simp)
  rw [fmtAltHex_toList] at hc
  simp only [List.mem_cons] at hc
  rcases hc with rfl | rfl | hc
  · decide
  · decide
  · intro hs
    have hd := isDigit_toDigits (by omega) (by omega) n c hc
    unfold Structural at hs
    rcases hs with rfl | rfl | rfl | rfl | rfl | rfl | rfl | rfl | rfl <;> exact absurd hd (by decide)

theorem fdeTail_plain (d : FdeDebug) : (fdeTail d).Plain .record :=
  cons_plain (by decide +kernel) (unsigned_plain _) <|
  cons_plain (by decide +kernel) (unsigned_plain _) <|
  cons_plain (by decide +kernel) (seq_plain fun v hv => by
      obtain ⟨x, _, rfl⟩ := List.mem_map.mp hv; exact result_plain readError_plain row_plain x) nil_plain

theorem fdeTail_inj {d e : FdeDebug} (h : fdeTail d = fdeTail e) :
    d.numFres = e.numFres ∧ d.startFreOff = e.startFreOff ∧ d.fres = e.fres := by
  simp only [fdeTail, DbgParts.cons.injEq, true_and, and_true] at h
  exact ⟨unsigned_inj h.1, unsigned_inj h.2.1,
    seq_inj (f := DbgVal.result DbgVal.readError DbgVal.row)
      (fun _ _ => result_inj (fun _ _ => readError_inj) (fun _ _ => row_inj)) h.2.2⟩

theorem fde_plain (d : FdeDebug) : (DbgVal.fde d).Plain :=
  record_plain (by decide +kernel) (by decide +kernel) (by simp) <|
    cons_plain (by decide +kernel) (altHex_plain _) <|
    cons_plain (by decide +kernel) (unsigned_plain _) <|
    cons_plain (by decide +kernel) (fdeType_plain _) <|
    cons_plain (by decide +kernel) (pauthKey_plain _) <| by
      cases d.repSize with
      | none => exact fdeTail_plain d
      | some r => exact cons_plain (by decide +kernel) (unsigned_plain _) (fdeTail_plain d)

theorem fde_inj {d e : FdeDebug} (h : DbgVal.fde d = DbgVal.fde e) : d = e := by
  obtain ⟨a, b, c, k, r, n, s, f⟩ := d
  obtain ⟨a', b', c', k', r', n', s', f'⟩ := e
  simp only [fde, DbgVal.mk.injEq, DbgParts.cons.injEq, true_and] at h
  obtain ⟨h1, h2, h3, h4, h5⟩ := h
  have ha := BitVec.eq_of_toNat_eq (fmtAltHex_inj (word_inj h1))
  have hb := unsigned_inj h2
  have hc := fdeType_inj h3
  have hk := pauthKey_inj h4
  subst ha hb hc hk
  have lab : ("rep_size" : String) ≠ "num_fres" := by decide +kernel
  cases r with
  | none =>
    cases r' with
    | none =>
      obtain ⟨x, y, z⟩ := fdeTail_inj h5
      simp only at x y z
      rw [x, y, z]
    | some _ =>
      simp only [fdeTail, DbgParts.cons.injEq] at h5
      exact absurd h5.1.symm lab
  | some _ =>
    cases r' with
    | none =>
      simp only [fdeTail, DbgParts.cons.injEq] at h5
      exact absurd h5.1 lab
    | some _ =>
      rw [DbgParts.cons.injEq] at h5
      obtain ⟨x, y, z⟩ := fdeTail_inj h5.2.2
      simp only at x y z
      rw [x, y, z, unsigned_inj h5.2.1]

theorem sframe_plain {t : EnumShown} (ht : EnumContract t) (d : SFrameDebug) : (DbgVal.sframe t d).Plain :=
  record_plain (by decide +kernel) (by decide +kernel) (by simp) <|
    cons_plain (by decide +kernel) (preamble_plain ht _) <|
    cons_plain (by decide +kernel) (ht.abi _) <|
    cons_plain (by decide +kernel) (option_plain signed_plain _) <|
    cons_plain (by decide +kernel) (option_plain signed_plain _) <|
    cons_plain (by decide +kernel) (unsigned_plain _) <|
    cons_plain (by decide +kernel) (unsigned_plain _) <|
    cons_plain (by decide +kernel) (seq_plain fun v hv => by
      obtain ⟨x, _, rfl⟩ := List.mem_map.mp hv; exact fde_plain x) nil_plain

theorem sframe_inj {t : EnumShown} (ht : EnumContract t) {d e : SFrameDebug}
    (h : DbgVal.sframe t d = DbgVal.sframe t e) : d = e := by
  obtain ⟨a, b, c, k, r, n, f⟩ := d
  obtain ⟨a', b', c', k', r', n', f'⟩ := e
  simp only [sframe, DbgVal.mk.injEq, DbgParts.cons.injEq, true_and, and_true] at h
  obtain ⟨h1, h2, h3, h4, h5, h6, h7⟩ := h
  rw [preamble_inj ht h1, ht.abiInj _ _ h2, option_inj (fun _ _ => signed_inj) h3,
    option_inj (fun _ _ => signed_inj) h4, unsigned_inj h5, unsigned_inj h6,
    seq_inj (f := DbgVal.fde) (fun _ _ => fde_inj) h7]

end DbgVal

variable {o o' : Endian}

/-- **C111.**  The text that `{:?}` or `{:#?}` gives for a section tells everything that is shown: two
sections with the same text were printed in the same layout and show the same values. -/
theorem C111_text_tells {t : EnumShown} (ht : EnumContract t) (a a' : Bool) (s : SFrame o) (s' : SFrame o')
    {x : String} (h : s.debugText t a = .ok x) (h' : s'.debugText t a' = .ok x) :
    a = a' ∧ ∃ d, s.debug = .ok d ∧ s'.debug = .ok d := by
  unfold SFrame.debugText at h h'
  obtain ⟨d, hd, hx⟩ := Rust.bind_eq_ok.mp h
  obtain ⟨d', hd', hx'⟩ := Rust.bind_eq_ok.mp h'
  injection hx with hx
  injection hx' with hx'
  have key : ∀ (b b' : Bool) (e e' : SFrameDebug), (DbgVal.sframe t e).text b = (DbgVal.sframe t e').text b' →
      b = false → b' = true → False := by
    intro b b' e e' hb h1 h2
    subst h1 h2
    unfold DbgVal.text at hb
    have hb := String.ofList_injective hb
    have hn := DbgVal.line_newline _ (DbgVal.sframe_plain ht e)
    simp only [Bool.false_eq_true, ↓reduceIte] at hb
    rw [hb] at hn
    exact hn (by simp [DbgVal.sframe, DbgVal.lines, DbgVal.openingLines])
  have ha : a = a' := by
    cases a <;> cases a' <;> first
      | rfl
      | exact (key _ _ d d' (hx.trans hx'.symm) rfl rfl).elim
      | exact (key _ _ d' d (hx'.trans hx.symm) rfl rfl).elim
  subst ha
  have hdd := DbgVal.sframe_inj ht
    (DbgVal.text_inj (DbgVal.sframe_plain ht d) (DbgVal.sframe_plain ht d') (hx.trans hx'.symm))
  subst hdd
  exact ⟨rfl, d, hd, hd'⟩

/-- **C111.**  Two sections with the same text have the same header, the same number of functions, and in
the same places functions whose accessors give the same values and whose rows decode to the same views or
to the same error. -/
theorem C111_text_same {t : EnumShown} (ht : EnumContract t) (a a' : Bool) (s : SFrame o) (s' : SFrame o')
    {x : String} (h : s.debugText t a = .ok x) (h' : s'.debugText t a' = .ok x) :
    s.preamble = s'.preamble ∧ s.abi = s'.abi ∧ s.fixedFpOffset = s'.fixedFpOffset ∧
    s.fixedRaOffset = s'.fixedRaOffset ∧ s.numFdes = s'.numFdes ∧ s.numFres = s'.numFres ∧
    ∃ es es', s.iter.collect = .ok es ∧ s'.iter.collect = .ok es' ∧ es.length = es'.length ∧
      ∀ (i : Nat) e e', es[i]? = some e → es'[i]? = some e' →
        e.startAddress = e'.startAddress ∧ e.size = e'.size ∧ e.pauthKey = e'.pauthKey ∧
        e.repBlockSize = e'.repBlockSize ∧ (e.fdetype = .pcInc ↔ e'.fdetype = .pcInc) ∧
        decodeFres o e.fde.info.toNat e.fde.numFres.toNat e.fres =
          decodeFres o' e'.fde.info.toNat e'.fde.numFres.toNat e'.fres := by
  obtain ⟨_, d, hd, hd'⟩ := C111_text_tells ht a a' s s' h h'
  obtain ⟨es, hc, hp, hg⟩ := C67_debug s
  obtain ⟨es', hc', hp', hg'⟩ := C67_debug s'
  have n1 : ∀ e ∈ es, ¬ RowOutside e := by
    intro e he ho
    obtain ⟨p, hpan⟩ := hp.mpr ⟨e, he, ho⟩
    rw [hd] at hpan
    cases hpan
  have n2 : ∀ e ∈ es', ¬ RowOutside e := by
    intro e he ho
    obtain ⟨p, hpan⟩ := hp'.mpr ⟨e, he, ho⟩
    rw [hd'] at hpan
    cases hpan
  obtain ⟨d1, e1, a1, a2, a3, a4, a5, a6, a7, a8⟩ := hg n1
  obtain ⟨d2, e2, b1, b2, b3, b4, b5, b6, b7, b8⟩ := hg' n2
  rw [hd] at e1
  rw [hd'] at e2
  injection e1 with e1
  injection e2 with e2
  subst e1 e2
  refine ⟨a1.symm.trans b1, a2.symm.trans b2, a3.symm.trans b3, a4.symm.trans b4, a5.symm.trans b5,
    a6.symm.trans b6, es, es', hc, hc', a7.symm.trans b7, ?_⟩
  intro i e e' he he'
  have hi : i < d.fdes.length := by
    rw [a7]; exact (List.getElem?_eq_some_iff.mp he).1
  have hx := List.getElem?_eq_getElem hi
  have u := a8 i e _ he hx
  have v := b8 i e' _ he' hx
  refine ⟨u.start.symm.trans v.start, u.size.symm.trans v.size, u.pauth.symm.trans v.pauth,
    u.rep.symm.trans v.rep, ?_, u.rows.symm.trans v.rows⟩
  have := u.mask.symm.trans v.mask
  constructor
  · intro hm
    exact Decidable.not_not.mp fun hn => this.mpr hn hm
  · intro hm
    exact Decidable.not_not.mp fun hn => this.mp hn hm

/-- **C111.**  The text exists exactly if no row starts outside its function (see C67); `{:?}` gives one
line. -/
theorem C111_text_exists {t : EnumShown} (ht : EnumContract t) (a : Bool) (s : SFrame o) :
    ((s.debugText t a).Panics ↔ s.debug.Panics) ∧
    ∀ x, s.debugText t a = .ok x → ('\n' ∈ x.toList ↔ a = true) := by
  constructor
  · unfold SFrame.debugText
    constructor
    · rintro ⟨p, hp⟩
      cases hd : s.debug with
      | ok d => rw [hd] at hp; cases hp
      | panic q => exact ⟨q, rfl⟩
      | diverge => rw [hd] at hp; cases hp
    · rintro ⟨p, hp⟩
      exact ⟨p, by rw [hp]; rfl⟩
  · intro x h
    unfold SFrame.debugText at h
    obtain ⟨d, _, hx⟩ := Rust.bind_eq_ok.mp h
    injection hx with hx
    subst hx
    unfold DbgVal.text
    rw [String.toList_ofList]
    cases a with
    | false => simpa using DbgVal.line_newline _ (DbgVal.sframe_plain ht d)
    | true => simp [DbgVal.sframe, DbgVal.lines, DbgVal.openingLines]

/-- An instance for the two enumerations. -/
def Samples.enums : EnumShown :=
  ⟨fun v => .one "Version" (.unsigned v), fun v => .one "Abi" (.unsigned v)⟩

/-- The instance meets the contract. -/
theorem Samples.enums_contract : EnumContract Samples.enums where
  version v := DbgVal.lit_one (by decide +kernel) (by decide +kernel) (DbgVal.unsigned_plain v)
  versionInj _ _ h := DbgVal.unsigned_inj (DbgVal.one_inj h).2
  abi v := DbgVal.lit_one (by decide +kernel) (by decide +kernel) (DbgVal.unsigned_plain v)
  abiInj _ _ h := DbgVal.unsigned_inj (DbgVal.one_inj h).2

/-- A row on one line and on many. -/
example :
    (DbgVal.row ⟨4, .sp, false, [16, -16]⟩).text false =
      "FrameRowEntry { start_address: 4, cfa_base_reg_id: Sp, mangled_ra_p: false, offsets: [16, -16] }" ∧
    (DbgVal.row ⟨4, .sp, false, [16]⟩).text true =
      "FrameRowEntry {\n    start_address: 4,\n    cfa_base_reg_id: Sp,\n    mangled_ra_p: false,\n    offsets: [\n        16,\n    ],\n}" := by
  decide +kernel

/-- The sample section has a text. -/
example (a : Bool) : ∃ x, Samples.v2F.debugText Samples.enums a = .ok x := by
  have h : ∃ d, Samples.v2F.debug = .ok d := by
    have : (match Samples.v2F.debug with | .ok _ => true | _ => false) = true := by decide +kernel
    split at this
    · next d hd => exact ⟨d, hd⟩
    · cases this
  obtain ⟨d, hd⟩ := h
  exact ⟨_, by unfold SFrame.debugText; rw [hd]; rfl⟩

end Verif
