import Verif.Spec.Listing
import Verif.Proofs.DebugRead
import Verif.Props.Numeral
import Verif.Props.Text
import Verif.Props.Pipeline
/-!
# The listing of sframedump reads back as the section: C122
-/

namespace Verif
open Spec

namespace Listing
open Spec.Listing

/-! ### Words and lines -/

theorem splitAt_piece {sep : Char} {w : List Char} (h : sep ∉ w) (acc r : List Char) :
    splitAt sep acc (w ++ r) = splitAt sep (w.reverse ++ acc) r := by
  induction w generalizing acc with
  | nil => rfl
  | cons c w ih =>
    have hc : c ≠ sep := fun e => h (by simp [e])
    rw [List.cons_append, splitAt, if_neg hc, ih (fun e => h (by simp [e]))]
    simp

theorem splitAt_sep {sep : Char} {w : List Char} (h : sep ∉ w) (r : List Char) :
    splitAt sep [] (w ++ sep :: r) = w :: splitAt sep [] r := by
  rw [splitAt_piece h, splitAt, if_pos rfl]; simp

theorem splitAt_last {sep : Char} {w : List Char} (h : sep ∉ w) : splitAt sep [] w = [w] := by
  have := splitAt_piece h [] []
  rw [List.append_nil] at this
  rw [this, splitAt]; simp

theorem splitAt_ne_nil (sep : Char) (acc s : List Char) : splitAt sep acc s ≠ [] := by
  induction s generalizing acc with
  | nil => simp [splitAt]
  | cons c s ih => rw [splitAt]; split <;> simp [ih]

theorem words_space (r : List Char) : words (' ' :: r) = words r := by
  unfold words; rw [splitAt, if_pos rfl]; simp

theorem words_spaces (k : Nat) (r : List Char) : words (List.replicate k ' ' ++ r) = words r := by
  induction k with
  | zero => rfl
  | succ k ih => rw [List.replicate_succ, List.cons_append, words_space, ih]

theorem words_cons {w : List Char} (h : ' ' ∉ w) (hw : w ≠ []) (r : List Char) :
    words (w ++ ' ' :: r) = w :: words r := by
  unfold words; rw [splitAt_sep h]; simp [hw]

theorem words_last {w : List Char} (h : ' ' ∉ w) (hw : w ≠ []) : words w = [w] := by
  unfold words; rw [splitAt_last h]; simp [hw]

theorem lines_cons {w : List Char} (h : '\n' ∉ w) (r : List Char) : lines (w ++ '\n' :: r) = w :: lines r := by
  unfold lines
  rw [splitAt_sep h, List.dropLast_cons_of_ne_nil (splitAt_ne_nil _ _ _)]

theorem lines_flatMap : ∀ {ls : List String}, (∀ l ∈ ls, '\n' ∉ l.toList) →
    lines (ls.flatMap fun l => l.toList ++ ['\n']) = ls.map String.toList
  | [], _ => rfl
  | l :: ls, h => by
    rw [List.flatMap_cons, List.append_assoc, List.singleton_append, lines_cons (h l (by simp)),
      lines_flatMap fun x hx => h x (by simp [hx])]
    rfl

/-! ### Numbers -/

theorem address_toNat (x : I32) : address x.toNat = x.toInt := by
  unfold address
  rw [BitVec.toInt_eq_toNat_cond]
  have := x.isLt
  split <;> split <;> omega

theorem offset_fmtOffset (x : Option I32) :
    offset (fmtOffset "cfa" x).toList = some (x.map BitVec.toInt) := by
  cases x with
  | none => rfl
  | some v =>
    have := (C119_signed.2.1 v).1
    simp only [fmtOffset, String.toList_append]
    show (Numeral.readInt (fmtSigned v).toList).map some = _
    rw [this]; rfl

theorem register_fmtOffset (b : BaseReg) (x : Option I32) :
    register (fmtOffset (fmtBase b) x).toList = some (x.map fun v => (b, v.toInt)) := by
  cases x with
  | none => cases b <;> rfl
  | some v =>
    have := (C119_signed.2.1 v).1
    simp only [fmtOffset, String.toList_append]
    cases b
    · show (Numeral.readInt (fmtSigned v).toList).map _ = _
      rw [this]; rfl
    · show (Numeral.readInt (fmtSigned v).toList).map _ = _
      rw [this]; rfl

/-! ### Lines -/

theorem fmtOffset_ne_nil {b : String} (x : Option I32) : (fmtOffset b x).toList ≠ [] := by
  cases x with
  | none => simp [fmtOffset]
  | some v => simp only [fmtOffset, fmtSigned]; split <;> simp

/-- The line of a row. -/
theorem row_text (start : I32) (base : BaseReg) (cfa fp ra : Option I32) (m : Bool) {t : String}
    (h : (DumpLine.row start base cfa fp ra m).text = some t) :
    row t.toList = some ⟨start.toInt, cfa.map fun v => (base, v.toInt), fp.map BitVec.toInt, ra.map BitVec.toInt, m⟩ ∧
    words t.toList ≠ [] := by
  have hs : ∀ b, ' ' ∉ b.toList → ∀ x, ' ' ∉ (fmtOffset b x).toList := fun b hb x =>
    not_mem_fmtOffset (by decide) (by decide) (by decide) (by decide) hb x
  have hb : ∀ b, ' ' ∉ (fmtBase b).toList := not_mem_fmtBase (by decide)
  have hw : words t.toList = [(fmtHex16 start).toList, (fmtOffset (fmtBase base) cfa).toList,
      (fmtOffset "cfa" fp).toList, (fmtOffset "cfa" ra).toList] ++ (if m then ["[s]".toList] else []) := by
    simp only [DumpLine.text, Option.some.injEq] at h
    subst h
    have e : ∀ (c f l e : String),
        ("  " ++ fmtHex16 start ++ " " ++ padRight12 c ++ " " ++ padRight12 f ++ " " ++ l ++ e).toList =
        ' ' :: ' ' :: ((fmtHex16 start).toList ++ ' ' ::
          ((padRight12 c).toList ++ ' ' :: ((padRight12 f).toList ++ ' ' :: (l ++ e).toList))) := by
      intro c f l e
      simp
    have pad : ∀ (s : String) (r : List Char), ' ' ∉ s.toList → s.toList ≠ [] →
        words ((padRight12 s).toList ++ ' ' :: r) = s.toList :: words r := by
      intro s r h1 h2
      rw [padRight12_toList, List.append_assoc]
      cases hk : 12 - s.length with
      | zero => exact words_cons h1 h2 r
      | succ k =>
        rw [List.replicate_succ, List.cons_append, words_cons h1 h2, words_spaces, words_space]
    have hne : (fmtHex16 start).toList ≠ [] := by
      intro h; have := fmtHex16_length start; rw [h] at this; cases this
    rw [e, words_space, words_space, words_cons (not_mem_fmtHex16 (by decide) start) hne,
      pad _ _ (hs _ (hb _) _) (fmtOffset_ne_nil _), pad _ _ (hs _ (by decide) _) (fmtOffset_ne_nil _)]
    cases m with
    | false =>
      simp only [Bool.false_eq_true, if_false, String.append_empty, List.append_nil]
      rw [words_last (hs _ (by decide) _) (fmtOffset_ne_nil _)]
    | true =>
      simp only [if_true, String.toList_append]
      have : " [s]".toList = ' ' :: "[s]".toList := rfl
      rw [this, words_cons (hs _ (by decide) _) (fmtOffset_ne_nil _)]
      rfl
  have hr : rowWords (fmtHex16 start).toList (fmtOffset (fmtBase base) cfa).toList
      (fmtOffset "cfa" fp).toList (fmtOffset "cfa" ra).toList m =
      some ⟨start.toInt, cfa.map fun v => (base, v.toInt), fp.map BitVec.toInt, ra.map BitVec.toInt, m⟩ := by
    unfold rowWords
    rw [(C119_hex.1 start).2, register_fmtOffset, offset_fmtOffset, offset_fmtOffset]
    simp [address_toNat]
  refine ⟨?_, by rw [hw]; simp⟩
  unfold row
  rw [hw]
  cases m with
  | false => exact hr
  | true => exact hr

/-- The heading. -/
theorem heading_text (ty : FdeType) {t : String} (h : (DumpLine.columns ty).text = some t) :
    heading t.toList = some ty := by
  simp only [DumpLine.text, Option.some.injEq] at h
  subst h
  cases ty <;> decide +kernel

theorem before_append (e : String) (s : List Char) : before e (s ++ e.toList) = some s := by
  unfold before
  rw [if_pos (by rw [List.isSuffixOf_iff_suffix]; exact List.suffix_append _ _)]
  simp

/-- The line of a function. -/
theorem func_text (i : Nat) (pc : I32) (n : U32) {t : String} (h : (DumpLine.func i pc n).text = some t) :
    func t.toList = some (i, pc.toInt, n.toNat) := by
  simp only [DumpLine.text, Option.some.injEq] at h
  subst h
  have h10 : ∀ n, ' ' ∉ Nat.toDigits 10 n := not_mem_toDigits (by omega) (by omega) (by decide)
  have h16 : ∀ n, ' ' ∉ Nat.toDigits 16 n := not_mem_toDigits (by omega) (by omega) (by decide)
  have hd : ∀ n, Nat.toDigits 10 n ≠ [] := fun n h => by
    have := read_toDigits (b := 10) (by omega) (by omega) n
    rw [h] at this; cases this
  have e : ("  func idx [" ++ String.ofList (Nat.toDigits 10 i) ++ "]: pc = 0x" ++ fmtHex pc ++ ", size = " ++
        String.ofList (Nat.toDigits 10 n.toNat) ++ " bytes").toList =
      ' ' :: ' ' :: ("func".toList ++ ' ' :: ("idx".toList ++ ' ' :: (('[' :: (Nat.toDigits 10 i ++ "]:".toList)) ++
        ' ' :: ("pc".toList ++ ' ' :: ("=".toList ++ ' ' :: (('0' :: 'x' :: Nat.toDigits 16 pc.toNat ++ ",".toList) ++
        ' ' :: ("size".toList ++ ' ' :: ("=".toList ++ ' ' :: (Nat.toDigits 10 n.toNat ++
        ' ' :: "bytes".toList))))))))) := by
    simp [fmtHex]
  have hw : words ("  func idx [" ++ String.ofList (Nat.toDigits 10 i) ++ "]: pc = 0x" ++ fmtHex pc ++ ", size = " ++
        String.ofList (Nat.toDigits 10 n.toNat) ++ " bytes").toList =
      ["func".toList, "idx".toList, '[' :: (Nat.toDigits 10 i ++ "]:".toList), "pc".toList, "=".toList,
        '0' :: 'x' :: Nat.toDigits 16 pc.toNat ++ ",".toList, "size".toList, "=".toList,
        Nat.toDigits 10 n.toNat, "bytes".toList] := by
    rw [e, words_space, words_space, words_cons (by decide) (by decide), words_cons (by decide) (by decide),
      words_cons (by simp [h10]) (by simp), words_cons (by decide) (by decide), words_cons (by decide) (by decide),
      words_cons (by simp [h16]) (by simp), words_cons (by decide) (by decide), words_cons (by decide) (by decide),
      words_cons (h10 _) (hd _), words_last (by decide) (by decide)]
  unfold func
  rw [hw]
  simp only [List.map_cons, List.map_nil, if_true]
  rw [before_append, before_append]
  simp [read_toDigits, Numeral.readHex, address_toNat]

/-! ### Offsets fit -/

theorem natOf_lt (o : Endian) (l : List U8) : natOf o l < 256 ^ l.length := by
  cases o
  · unfold natOf
    simp only
    induction l with
    | nil => simp
    | cons b l ih =>
      have := b.isLt
      simp only [List.foldr_cons, List.length_cons, Nat.pow_succ]
      omega
  · unfold natOf
    have : ∀ (l : List U8) (a k : Nat), a < 256 ^ k →
        l.foldl (fun acc b => 256 * acc + b.toNat) a < 256 ^ (k + l.length) := by
      intro l
      induction l with
      | nil => intro a k h; simpa using h
      | cons b l ih =>
        intro a k h
        have hb := b.isLt
        have := ih (256 * a + b.toNat) (k + 1) (by rw [Nat.pow_succ]; omega)
        rw [List.foldl_cons, List.length_cons]
        rwa [Nat.add_assoc, Nat.add_comm 1] at this
    simpa using this l 0 0 (by simp)

theorem sintAt_fits (o : Endian) (s : List U8) (p : Nat) {n : Nat} (h : n = 1 ∨ n = 2 ∨ n = 4) :
    (BitVec.ofInt 32 (sintAt o s p n)).toInt = sintAt o s p n := by
  have h1 : uintAt o s p n < 256 ^ n := by
    have h1 := natOf_lt o ((s.drop p).take n)
    have h2 : ((s.drop p).take n).length ≤ n := by simp; omega
    exact Nat.lt_of_lt_of_le h1 (Nat.pow_le_pow_right (by omega) h2)
  rw [BitVec.toInt_ofInt]
  unfold sintAt signed
  generalize uintAt o s p n = v at h1
  rcases h with rfl | rfl | rfl <;> rw [Int.bmod_def] <;> split <;> split <;> omega

/-- The offsets of a decoded row have at most 32 bits. -/
def Fits (v : FreView) : Prop := ∀ x ∈ v.offsets, (BitVec.ofInt 32 x).toInt = x

theorem decodeFre_fits {o : Endian} {info : Nat} {fres rest : List U8} {v : FreView}
    (h : decodeFre o info fres = .ok (v, rest)) : Fits v := by
  unfold decodeFre at h
  split at h
  · cases h
  · simp only at h
    split at h
    · cases h
    · split at h
      · cases h
      · split at h
        · cases h
        · next z hz =>
          split at h
          · cases h
          · cases h
            intro x hx
            simp only [List.mem_map] at hx
            obtain ⟨i, _, rfl⟩ := hx
            refine sintAt_fits _ _ _ ?_
            unfold offsetWidth at hz
            split at hz <;> cases hz <;> simp

theorem decodeFres_fits {o : Endian} {info n : Nat} {fres : List U8} {v : FreView}
    (h : .ok v ∈ decodeFres o info n fres) : Fits v := by
  induction n generalizing fres with
  | zero => cases h
  | succ n ih =>
    unfold decodeFres at h
    cases hd : decodeFre o info fres with
    | error e => rw [hd] at h; simp at h
    | ok p =>
      obtain ⟨w, rest⟩ := p
      rw [hd] at h
      simp only [List.mem_cons, Except.ok.injEq] at h
      rcases h with rfl | h
      · exact decodeFre_fits hd
      · exact ih h

theorem map_fits {v : FreView} (h : Fits v) (i : Nat) :
    (v.offsets[i]?.map (BitVec.ofInt 32)).map BitVec.toInt = v.offsets[i]? := by
  cases hx : v.offsets[i]? with
  | none => rfl
  | some x => simp [h x (List.mem_of_getElem? hx)]

theorem fixed_fits (x : I8) : (BitVec.ofInt 32 x.toInt).toInt = x.toInt := by
  have h1 := BitVec.le_toInt x
  have h2 := BitVec.toInt_lt (x := x)
  rw [BitVec.toInt_ofInt, Int.bmod_def]
  split <;> omega

/-- The row that is printed is the row that should be. -/
theorem row_rowLine (ff fr : I8) (start : Int) {v : FreView} (hv : Fits v) :
    ∃ t, (rowLine ff.toInt fr.toInt start v).text = some t ∧
      row t.toList = some (listedRow ff.toInt fr.toInt start v) ∧ words t.toList ≠ [] := by
  refine ⟨_, rfl, ?_⟩
  have h := row_text (BitVec.ofInt 32 (start + v.start)) v.base (v.offsets[0]?.map (BitVec.ofInt 32))
    ((if ff.toInt ≠ 0 then some ff.toInt
      else if fr.toInt ≠ 0 then v.offsets[1]? else v.offsets[2]?).map (BitVec.ofInt 32))
    ((if fr.toInt ≠ 0 then some fr.toInt else v.offsets[1]?).map (BitVec.ofInt 32)) v.mangled rfl
  refine ⟨h.1.trans ?_, h.2⟩
  unfold listedRow
  congr 2
  · exact BitVec.toInt_ofInt _
  · have := map_fits hv 0
    cases hx : v.offsets[0]? with
    | none => rfl
    | some x => rw [hx] at this; simpa using this
  · split
    · exact congrArg some (fixed_fits ff)
    · split
      · exact map_fits hv 1
      · exact map_fits hv 2
  · split
    · exact congrArg some (fixed_fits fr)
    · exact map_fits hv 1

/-! ### Functions -/

/-- The lines on stdout. -/
def textLines (abiText : U8 → String) (ls : List DumpLine) : List (List Char) :=
  (ls.flatMap (DumpLine.stdout abiText)).map String.toList

theorem textLines_append (abiText : U8 → String) (a b : List DumpLine) :
    textLines abiText (a ++ b) = textLines abiText a ++ textLines abiText b := by
  simp [textLines]

theorem rows_items (abiText : U8 → String) (ff fr : I8) (start : Int) (rest : List (List Char)) :
    ∀ l : List (Except ReadError FreView), (∀ v, .ok v ∈ l → Fits v) →
      rows (textLines abiText (l.map (itemLine ff.toInt fr.toInt start)) ++ [] :: rest) =
        some ((l.filterMap Except.toOption).map (listedRow ff.toInt fr.toInt start), rest)
  | [], _ => rfl
  | .error e :: l, h => by
    have ih := rows_items abiText ff fr start rest l fun v hv => h v (by simp [hv])
    rw [List.filterMap_cons]
    exact ih
  | .ok v :: l, h => by
    have ih := rows_items abiText ff fr start rest l fun v hv => h v (by simp [hv])
    obtain ⟨t, h1, h2, h3⟩ := row_rowLine ff fr start (h v (by simp))
    have e : textLines abiText ((Except.ok v :: l).map (itemLine ff.toInt fr.toInt start)) =
        t.toList :: textLines abiText (l.map (itemLine ff.toInt fr.toInt start)) := by
      have : DumpLine.stdout abiText (rowLine ff.toInt fr.toInt start v) = [t] := by
        show (rowLine ff.toInt fr.toInt start v).text.toList = [t]
        rw [h1]; rfl
      simp [textLines, itemLine, this]
    rw [e, List.cons_append, Spec.Listing.rows, if_neg h3, h2, Option.bind_some, ih]
    rfl

theorem funcs_fns {o : Endian} (abiText : U8 → String) (ff fr : I8) :
    ∀ (es : List (FuncDescEntry o)) (fuel idx : Nat), es.length ≤ fuel →
      funcs fuel (textLines abiText (fnsLines ff.toInt fr.toInt idx es)) =
        some (es.mapIdx fun i e => listedFunc ff.toInt fr.toInt (idx + i) e)
  | [], fuel, idx, _ => by cases fuel <;> rfl
  | e :: es, 0, idx, h => by simp at h
  | e :: es, fuel + 1, idx, h => by
    have ih := funcs_fns abiText ff fr es fuel (idx + 1) (by simpa using h)
    obtain ⟨t, ht⟩ : ∃ t, (DumpLine.func idx e.startAddress e.size).text = some t := ⟨_, rfl⟩
    obtain ⟨c, hc⟩ : ∃ c, (DumpLine.columns e.fdetype).text = some c := ⟨_, rfl⟩
    have hr := rows_items abiText ff fr e.startAddress.toInt
      (textLines abiText (fnsLines ff.toInt fr.toInt (idx + 1) es))
      (decodeFres o e.fde.info.toNat e.fde.numFres.toNat e.fres) fun v hv => decodeFres_fits hv
    have e1 : textLines abiText (fnsLines ff.toInt fr.toInt idx (e :: es)) = t.toList :: c.toList ::
        (textLines abiText ((decodeFres o e.fde.info.toNat e.fde.numFres.toNat e.fres).map
          (itemLine ff.toInt fr.toInt e.startAddress.toInt)) ++ [] ::
          textLines abiText (fnsLines ff.toInt fr.toInt (idx + 1) es)) := by
      have ht' : DumpLine.stdout abiText (.func idx e.startAddress e.size) = [t] := by
        show (DumpLine.func idx e.startAddress e.size).text.toList = [t]
        rw [ht]; rfl
      have hc' : DumpLine.stdout abiText (.columns e.fdetype) = [c] := by
        show (DumpLine.columns e.fdetype).text.toList = [c]
        rw [hc]; rfl
      rw [fnsLines, fnLines, textLines_append, textLines_append, textLines_append]
      simp only [textLines, List.flatMap_cons, List.flatMap_nil, ht', hc', List.append_nil, List.map_cons, List.map_nil, List.cons_append, List.nil_append, List.append_assoc]
      rfl
    rw [e1, funcs, func_text _ _ _ ht, Option.bind_some]
    simp only
    rw [heading_text _ hc, Option.bind_some, hr, Option.bind_some]
    simp only
    rw [ih, Option.bind_some, List.mapIdx_cons]
    have : (fun (i : Nat) (e : FuncDescEntry o) => listedFunc ff.toInt fr.toInt (idx + 1 + i) e) =
        fun i e => listedFunc ff.toInt fr.toInt (idx + (i + 1)) e := by
      funext i e
      rw [Nat.add_assoc, Nat.add_comm 1]
    rw [this]
    rfl

theorem fnsLines_length {o : Endian} (abiText : U8 → String) (ff fr : Int) :
    ∀ (es : List (FuncDescEntry o)) (idx : Nat), es.length ≤ (textLines abiText (fnsLines ff fr idx es)).length
  | [], _ => by simp
  | e :: es, idx => by
    have ih := fnsLines_length abiText ff fr es (idx + 1)
    rw [fnsLines, textLines_append, fnLines, textLines_append, textLines_append, List.length_append,
      List.length_append, List.length_append, List.length_cons]
    have : (textLines abiText [DumpLine.blank]).length = 1 := rfl
    omega

/-! ### The header -/

theorem trim_space (k : Nat) (s : List Char) :
    DebugText.trim (List.replicate k ' ' ++ s) = DebugText.trim s := by
  unfold DebugText.trim; rw [dropWhile_replicate]

theorem labelled_line {label : String} (h1 : ':' ∉ label.toList) (h2 : Tight label.toList) (h3 : label.toList ≠ [])
    (v : List Char) : labelled label (' ' :: ' ' :: label.toList ++ ':' :: v) = some (DebugText.trim v) := by
  have hne : ∀ c ∈ ' ' :: ' ' :: label.toList, (c != ':') = true := by
    intro c hc
    simp only [List.mem_cons] at hc
    rcases hc with rfl | rfl | hc
    · decide
    · decide
    · simp only [bne_iff_ne, ne_eq]
      rintro rfl; exact h1 hc
  have e1 : (' ' :: ' ' :: label.toList ++ ':' :: v).takeWhile (· != ':') = ' ' :: ' ' :: label.toList := by
    rw [List.takeWhile_append_of_pos hne]; simp
  have e2 : (' ' :: ' ' :: label.toList ++ ':' :: v).dropWhile (· != ':') = ':' :: v := by
    rw [List.dropWhile_append_of_pos hne]; simp
  have e3 : DebugText.trim (' ' :: ' ' :: label.toList) = label.toList := by
    simpa using trim_spaces h2 h3 2 0
  unfold labelled
  rw [e1, e2, e3, if_pos rfl]
  rfl

theorem tight_noSpace {s : List Char} (h : ' ' ∉ s) : Tight s :=
  ⟨fun e => h (List.mem_of_head? e), fun e => h (List.mem_of_getLast? e)⟩

theorem trim_noSpace (k : Nat) {s : List Char} (h : ' ' ∉ s) :
    DebugText.trim (List.replicate k ' ' ++ s) = s := by
  rw [trim_space, trim_tight (tight_noSpace h)]

theorem fixed_text (x : Option I8) : fixed (fmtFixed x).toList = some (x.map BitVec.toInt) ∧
    ' ' ∉ (fmtFixed x).toList := by
  cases x with
  | none => exact ⟨rfl, by decide⟩
  | some x =>
    have h := C119_signed.2.2.2 x
    constructor
    · unfold fixed
      rw [if_neg, h]; rfl
      intro e
      have hn : Numeral.readInt "none".toList = none := by decide +kernel
      rw [e, hn] at h
      cases h
    · have h10 : ∀ n, ' ' ∉ Nat.toDigits 10 n := not_mem_toDigits (by omega) (by omega) (by decide)
      unfold fmtFixed
      simp only [String.toList_append, String.toList_ofList, List.mem_append, not_or]
      refine ⟨?_, h10 _⟩
      split <;> decide

/-- A whole listing. -/
theorem read_listing {o : Endian} (abiText : U8 → String) (hn : ∀ a, '\n' ∉ (abiText a).toList)
    (s : SFrame o) (es : List (FuncDescEntry o)) :
    read (stdoutText abiText (listing s es)).toList = some (ofSection abiText s es) := by
  have h10 : ∀ n, '\n' ∉ Nat.toDigits 10 n := not_mem_toDigits (by omega) (by omega) (by decide)
  have h16 : ∀ n, '\n' ∉ Nat.toDigits 16 n := not_mem_toDigits (by omega) (by omega) (by decide)
  have s10 : ∀ n, ' ' ∉ Nat.toDigits 10 n := not_mem_toDigits (by omega) (by omega) (by decide)
  have s16 : ∀ n, ' ' ∉ Nat.toDigits 16 n := not_mem_toDigits (by omega) (by omega) (by decide)
  have hlines : lines (stdoutText abiText (listing s es)).toList = textLines abiText (listing s es) := by
    have : (stdoutText abiText (listing s es)).toList =
        ((listing s es).flatMap (DumpLine.stdout abiText)).flatMap fun l => l.toList ++ ['\n'] := by
      rw [Text.stdoutText_toList, List.flatMap_assoc]; rfl
    rw [this]
    refine lines_flatMap fun l hl => ?_
    obtain ⟨d, _, hd⟩ := List.mem_flatMap.1 hl
    have hf := Text.newline_first abiText d
    have key : d.stdout abiText = d.text.toList → '\n' ∉ l.toList := by
      intro e
      unfold Text.first at hf
      rw [e] at hd hf
      cases ht : d.text with
      | none => rw [ht] at hd; cases hd
      | some t =>
        rw [ht] at hd hf
        simp only [Option.toList_some, List.mem_singleton] at hd
        subst hd
        exact hf
    cases d with
    | header v f d e a p q =>
      have hp := not_mem_fmtFixed p
      have hq := not_mem_fmtFixed q
      simp only [DumpLine.stdout, headerText, List.mem_cons, List.not_mem_nil, or_false] at hd
      rcases hd with rfl | rfl | rfl | rfl | rfl | rfl | rfl | rfl | rfl | rfl <;>
        simp [h10, h16, hn, hp, hq]
    | _ => exact key rfl
  have hval : ∀ {label : String} {line : String} (k : Nat) (v : List Char), ':' ∉ label.toList → Tight label.toList →
      label.toList ≠ [] → line.toList = ' ' :: ' ' :: label.toList ++ ':' :: (List.replicate k ' ' ++ v) →
      labelled label line.toList = some (DebugText.trim v) := by
    intro label line k v a b c h
    rw [h, labelled_line a b c, trim_space]
  have hval' : ∀ {label : String} {line : String} (k : Nat) (v : List Char), ':' ∉ label.toList → Tight label.toList →
      label.toList ≠ [] → ' ' ∉ v → line.toList = ' ' :: ' ' :: label.toList ++ ':' :: (List.replicate k ' ' ++ v) →
      labelled label line.toList = some v := by
    intro label line k v a b c d h
    rw [hval k v a b c h, trim_tight (tight_noSpace d)]
  have v1 := hval' (label := "Version") (line := "  Version:  " ++ String.ofList (Nat.toDigits 10 s.version.toNat))
    2 _ (by decide) ⟨by decide, by decide⟩ (by decide) (s10 s.version.toNat) (by simp)
  have v2 := hval' (label := "Flags") (line := "  Flags:    0x" ++ String.ofList (Nat.toDigits 16 s.flags.toNat))
    4 ('0' :: 'x' :: Nat.toDigits 16 s.flags.toNat) (by decide) ⟨by decide, by decide⟩ (by decide) (by simp [s16]) (by simp)
  have v3 := hval' (label := "Num FDEs") (line := "  Num FDEs: " ++ String.ofList (Nat.toDigits 10 s.numFdes.toNat))
    1 _ (by decide) ⟨by decide, by decide⟩ (by decide) (s10 s.numFdes.toNat) (by simp)
  have v4 := hval' (label := "Num FREs") (line := "  Num FREs: " ++ String.ofList (Nat.toDigits 10 s.numFres.toNat))
    1 _ (by decide) ⟨by decide, by decide⟩ (by decide) (s10 s.numFres.toNat) (by simp)
  have v5 := hval (label := "Arch/ABI") (line := "  Arch/ABI: " ++ abiText s.abi)
    1 (abiText s.abi).toList (by decide) ⟨by decide, by decide⟩ (by decide) (by simp)
  have v6 := hval' (label := "Fixed FP Offset") (line := "  Fixed FP Offset: " ++ fmtFixed s.fixedFpOffset)
    1 _ (by decide) ⟨by decide, by decide⟩ (by decide) (fixed_text s.fixedFpOffset).2 (by simp)
  have v7 := hval' (label := "Fixed RA Offset") (line := "  Fixed RA Offset: " ++ fmtFixed s.fixedRaOffset)
    1 _ (by decide) ⟨by decide, by decide⟩ (by decide) (fixed_text s.fixedRaOffset).2 (by simp)
  have hz : ∀ x : I8, (if x = 0 then none else some x : Option I8).map BitVec.toInt = fixedOf x.toInt := by
    intro x
    unfold fixedOf
    have : x.toInt = 0 ↔ x = 0 := by rw [← BitVec.toInt_zero (w := 8), BitVec.toInt_inj]; rfl
    by_cases h : x = 0
    · rw [if_pos h, if_pos (this.2 h)]; rfl
    · rw [if_neg h, if_neg (fun e => h (this.1 e))]; rfl
  have hf := funcs_fns abiText s.fixedFp s.fixedRa es
    (textLines abiText (fnsLines s.fixedFp.toInt s.fixedRa.toInt 0 es)).length 0 (fnsLines_length _ _ _ _ _)
  have e : textLines abiText (listing s es) =
      "Header:".toList ::
      ("  Version:  " ++ String.ofList (Nat.toDigits 10 s.version.toNat)).toList ::
      ("  Flags:    0x" ++ String.ofList (Nat.toDigits 16 s.flags.toNat)).toList ::
      ("  Num FDEs: " ++ String.ofList (Nat.toDigits 10 s.numFdes.toNat)).toList ::
      ("  Num FREs: " ++ String.ofList (Nat.toDigits 10 s.numFres.toNat)).toList ::
      ("  Arch/ABI: " ++ abiText s.abi).toList ::
      ("  Fixed FP Offset: " ++ fmtFixed s.fixedFpOffset).toList ::
      ("  Fixed RA Offset: " ++ fmtFixed s.fixedRaOffset).toList ::
      "".toList :: "Function Index:".toList ::
      textLines abiText (fnsLines s.fixedFp.toInt s.fixedRa.toInt 0 es) := by
    simp only [textLines, listing, List.flatMap_cons, DumpLine.stdout, headerText, List.map_cons,
      List.cons_append, List.nil_append]
  unfold Spec.Listing.read
  rw [hlines, e]
  simp only
  rw [if_pos ⟨trivial, by decide, trivial⟩, v1, v2, v3, v4, v5, v6, v7, hf]
  simp only [Option.bind_some, read_toDigits (b := 10) (by omega) (by omega), Numeral.readHex,
    read_toDigits (b := 16) (by omega) (by omega), (fixed_text _).1]
  unfold SFrame.fixedFpOffset SFrame.fixedRaOffset
  rw [hz, hz]
  simp only [Nat.zero_add]
  rfl

end Listing

/-! ### C122 -/

variable {o : Endian}

/-- **C122**: the text of a dump that comes to its end reads back as the section: the header, and
function by function its number, address, size, type and the rows that can be decoded.  `abiText` is the
name of an ABI. -/
theorem C122_reads_back (abiText : U8 → String) (hn : ∀ a, '\n' ∉ (abiText a).toList) (dbg : Bool) (s : SFrame o)
    (es : List (FuncDescEntry o)) (hes : s.iter.collect = .ok es) (h : (dump dbg s).2 = .ok ()) :
    Spec.Listing.read (stdoutText abiText (dump dbg s).1).toList = some (Spec.Listing.ofSection abiText s es) := by
  have hp := dump_prints dbg s es hes
  rw [hp.1 fun hb => by obtain ⟨p, hp⟩ := (hp.2 hb).1; rw [h] at hp; cases hp]
  exact Listing.read_listing abiText hn s es

/-- **C122**: whenever the tool succeeds, what it has printed reads back as the `.sframe` section of the
file. -/
theorem C122_tool (abiText : U8 → String) (hn : ∀ a, '\n' ∉ (abiText a).toList) (dbg : Bool) (w : World)
    (path : String) (h : (sframedump dbg w path).2 = .ok (.ok ())) :
    ∃ file data, Readable w path file data ∧ ∃ (s : SFrame w.host) (es : List (FuncDescEntry w.host)),
      SFrame.load w.host data = .ok (.ok s) ∧ s.iter.collect = .ok es ∧
      Spec.Listing.read (stdoutText abiText (sframedump dbg w path).1).toList =
        some (Spec.Listing.ofSection abiText s es) := by
  have key : ∃ file data, Readable w path file data ∧ ∃ s : SFrame w.host, SFrame.load w.host data = .ok (.ok s) := by
    unfold sframedump at h
    split at h
    · cases h
    next f1 e1 =>
    split at h
    · cases h
    next d1 e2 =>
    split at h
    · cases h
    next f2 e3 =>
    split at h
    · cases h
    next sec e4 =>
    split at h
    · cases h
    next d2 e5 =>
    split at h
    · cases h
    · cases h
    · cases h
    next s e6 => exact ⟨f2, d2, ⟨⟨f1, d1, e1, e2, e3⟩, sec, e4, e5⟩, s, e6⟩
  obtain ⟨file, data, hr, s, hs⟩ := key
  refine ⟨file, data, hr, s, _, hs, FuncDescIter.collect_eq _, ?_⟩
  have e := sframedump_readable (dbg := dbg) hr
  rw [hs] at e
  simp only at e
  rw [e] at h ⊢
  refine C122_reads_back abiText hn dbg s _ (FuncDescIter.collect_eq _) ?_
  simp only at h
  cases hd : (dump dbg s).2 with
  | ok u => rfl
  | panic p => rw [hd] at h; cases h
  | diverge => rw [hd] at h; cases h

theorem Listing.listedRow_built {s : SFrame o} {so : SFrameOptions} {f : FuncDescBuilder} {r : FrameRowBuilder}
    {q : FrameRowEntry o} (h : SameRow s so q r) :
    Spec.Listing.listedRow s.fixedFp.toInt s.fixedRa.toInt f.startAddress.toInt q.view =
      Spec.Listing.builtRow so f r := by
  obtain ⟨h1, h2, h3, h4, h5, h6⟩ := h
  obtain ⟨c1, c2, c3⟩ := C21_offset_accessors q s
  have e1 := orMissing_inj.1 (c1.symm.trans h4)
  have e2 := orMissing_inj.1 (c2.symm.trans h5)
  have e3 := orMissing_inj.1 (c3.symm.trans h6)
  unfold Spec.Listing.listedRow Spec.Listing.builtRow
  rw [e1, e2, e3]
  have hs : q.view.start = r.startAddress.toNat := by rw [← h1]; rfl
  have hb : q.view.base = r.baseReg := h2
  have hm : q.view.mangled = r.mangled := h3
  rw [hs, hb, hm]
  congr 1
  cases r.offsets <;> rfl

theorem Listing.views_ok : ∀ rs : List (FrameRowEntry o),
    ((rs.map (Except.ok (ε := ReadError))).map fun x => x.map FrameRowEntry.view).filterMap Except.toOption =
      rs.map FrameRowEntry.view
  | [] => rfl
  | r :: rs => by
    have ih := views_ok rs
    simp only [List.map_cons]
    rw [List.filterMap_cons]
    exact congrArg (r.view :: ·) ih

/-- **C122**: what was put into a builder is read back from the listing of the section that it builds, if
its rows can be stored (C31) and start inside their function and, in debug builds, not above `i32::MAX`. -/
theorem C122_built (abiText : U8 → String) (hn : ∀ a, '\n' ∉ (abiText a).toList) (dbg dbg' dbg'' : Bool) (o : Endian)
    (b : SFrameBuilder) (hb : SFrameBuilder.Reachable dbg' b) (out : List U8) (h : b.build dbg'' o = .ok (.ok out))
    (hst : ∀ f ∈ functions b, Storable f) (hno : ∀ f ∈ functions b, ∀ r ∈ rows f, ¬ Stops dbg f r) :
    ∃ s, SFrame.load o out = .ok (.ok s) ∧ (dump dbg s).2 = .ok () ∧
      Spec.Listing.read (stdoutText abiText (dump dbg s).1).toList = some (Spec.Listing.ofBuilder abiText b) := by
  obtain ⟨s, h1, _, h3⟩ := C62_dump_of_built dbg dbg' dbg'' o b hb out h
  obtain ⟨lss, _, hd, _⟩ := h3 hno
  obtain ⟨s', es, h1', h2, v1, v2, v3, v4, v5, _, v6, v7, v8, _, hent⟩ :=
    C30_round_trip dbg'' dbg' o b hb out h
  obtain ⟨s'', es', h1'', h2', _, hrows⟩ := C31_rows_partial dbg'' dbg' o b hb out h
  rw [h1] at h1' h1''; cases h1'; cases h1''
  rw [h2] at h2'; cases h2'
  have hok : (dump dbg s).2 = .ok () := by rw [hd]
  refine ⟨s, h1, hok, ?_⟩
  rw [C122_reads_back abiText hn dbg s es h2 hok]
  have hz : ∀ (x : I8) (y : Option NonZeroI8), (if x = 0 then none else some x : Option I8) = y.map (·.val) →
      Spec.Listing.fixedOf x.toInt = y.map fun v => v.val.toInt := by
    intro x y e
    unfold Spec.Listing.fixedOf
    have : x.toInt = 0 ↔ x = 0 := by rw [← BitVec.toInt_zero (w := 8), BitVec.toInt_inj]; rfl
    by_cases hx : x = 0
    · rw [if_pos hx] at e
      rw [if_pos (this.2 hx)]
      cases y with
      | none => rfl
      | some v => cases e
    · rw [if_neg hx] at e
      rw [if_neg fun e => hx (this.1 e)]
      cases y with
      | none => cases e
      | some v => cases e; rfl
  unfold Spec.Listing.ofSection Spec.Listing.ofBuilder
  rw [v1, v2, v3, v6, v7, hz _ _ v4, hz _ _ v5]
  refine congrArg (fun x => some (Spec.Listing.Listing.mk 2 _ _ _ _ _ _ x)) ?_
  apply List.ext_getElem?
  intro i
  rw [List.getElem?_mapIdx, List.getElem?_mapIdx]
  rcases Nat.lt_or_ge i (functions b).length with hi | hi
  · have hf := List.getElem?_eq_getElem hi
    have he := List.getElem?_eq_getElem (l := es) (i := i) (by omega)
    obtain ⟨g1, g2, g3, _⟩ := hent i _ _ hf he
    obtain ⟨rs, hrs, hlen, hsame⟩ := (hrows i _ _ hf he).2 (hst _ (List.getElem_mem _))
    rw [hf, he]
    simp only [Option.map_some, Option.some.injEq]
    generalize (functions b)[i] = f at *
    generalize es[i] = e at *
    have hp : ∀ v, .ok v ∈ decodeFres o e.fde.info.toNat e.fde.numFres.toNat e.fres → v.start < e.size.toNat := by
      intro v hv
      apply Classical.byContradiction
      intro hn
      obtain ⟨p, hp⟩ := (C11_fre_panics_iff_partial e).1.2 ⟨v, hv, hn⟩
      rw [hrs] at hp; cases hp
    obtain ⟨rs', k1, k2, _⟩ := C12_rows_decode e hp
    rw [hrs] at k1
    cases k1
    unfold Spec.Listing.listedFunc
    rw [← k2, g1, g2, g3, Listing.views_ok]
    congr 1
    apply List.ext_getElem?
    intro j
    simp only [List.map_map, List.getElem?_map]
    rcases Nat.lt_or_ge j rs.length with hj | hj
    · have hj' : j < (rows f).length := by omega
      rw [List.getElem?_eq_getElem hj, List.getElem?_eq_getElem hj']
      simp only [Option.map_some, Option.some.injEq]
      exact Listing.listedRow_built (hsame j _ _ (List.getElem?_eq_getElem hj') (List.getElem?_eq_getElem hj))
    · rw [List.getElem?_eq_none hj, List.getElem?_eq_none (by omega)]
      rfl
  · rw [List.getElem?_eq_none hi, List.getElem?_eq_none (by omega)]
    rfl

/-- The sample section, which has two functions; the second has no FP offset. -/
example : Spec.Listing.read (stdoutText (fun _ => "AMD64_ENDIAN_LITTLE") (dump true Samples.v2F).1).toList =
    some ⟨2, 1, 2, 3, "AMD64_ENDIAN_LITTLE".toList, none, some (-8), [
      ⟨0, 0x1000, 32, .pcInc, [⟨0x1000, some (.sp, 8), none, some (-8), false⟩,
        ⟨0x1004, some (.sp, 16), some (-16), some (-8), false⟩]⟩,
      ⟨1, 0x1020, 16, .pcInc, [⟨0x1020, some (.sp, 24), none, some (-8), false⟩]⟩]⟩ ∧
    (dump true Samples.v2F).2 = .ok () := by decide +kernel

/-- The tool succeeds on it. -/
example : (sframedump true (Samples.dumpWorld .little .little Samples.v2) "x").2 = .ok (.ok ()) := by decide +kernel

/-- The sample builder: a PcMask function and an ordinary one. -/
example : SFrameBuilder.Reachable true Samples.sec ∧ Samples.sec.build true .little = .ok (.ok Samples.secOut) ∧
    (∀ f ∈ functions Samples.sec, Storable f) ∧ (∀ f ∈ functions Samples.sec, ∀ r ∈ rows f, ¬ Stops true f r) ∧
    (Spec.Listing.ofBuilder (fun _ => "") Samples.sec).funcs.map (·.kind) = [.pcMask, .pcInc] := by
  refine ⟨Samples.sec_reachable true, Samples.sec_build true, fun f hf r hr => ?_,
    by unfold Stops; decide +kernel, by decide +kernel⟩
  have h : ∀ f ∈ functions Samples.sec, ∀ r ∈ rows f, r.startAddress.toNat < f.size.toNat ∧
      (0x80 ∉ values r ∧ 0x8000 ∉ values r) ∧ f.options.fixedRa ≠ none := by decide +kernel
  obtain ⟨h1, h2, h3⟩ := h f hf r hr
  refine ⟨h1, ?_, fun _ _ h => absurd h h3⟩
  rintro ⟨m, rfl | rfl, _, hm, _⟩
  · exact h2.1 hm
  · exact h2.2 hm

/-- A mark in the wrong place, a label of another value and a row without all its columns are not read. -/
example : Spec.Listing.heading "  STARTPC      [m] CFA          FP           RA".toList = some .pcMask ∧
    Spec.Listing.heading "  STARTPC          CFA [m]          FP           RA".toList = none ∧
    Spec.Listing.labelled "Num FDEs" "  Num FREs: 3".toList = none ∧
    Spec.Listing.row "  0000000000001004 sp+16        cfa-16".toList = none ∧
    Spec.Listing.func "  func idx [1]: pc = 0x1020, size = 16 rows".toList = none := by decide +kernel

end Verif
