import Verif.Proofs.Text
import Verif.Props.Dump
/-!
# The text that the dump tool prints: C60, C61
-/

namespace Verif
open Spec

variable {o : Endian}

/-! ### C61 -/

/-- A line on stdout (decoding errors go to stderr). -/
def Spec.onStdout : DumpLine → Bool
  | .decodeError _ => false
  | _ => true

/-- The line without what its text does not show: the base register of an unknown CFA. -/
def Spec.shown : DumpLine → DumpLine
  | .row start _ none fp ra m => .row start .fp none fp ra m
  | l => l

namespace Text

/-- The characters of a line of output. -/
def chars (abiText : U8 → String) (d : DumpLine) : List Char :=
  (d.stdout abiText).flatMap fun s => s.toList ++ ['\n']

theorem join_toList (l : List String) : (String.join l).toList = l.flatMap String.toList := by
  have : ∀ (l : List String) (a : String),
      (l.foldl (fun r s => r ++ s) a).toList = a.toList ++ l.flatMap String.toList := by
    intro l
    induction l with
    | nil => simp
    | cons s l ih => intro a; simp [ih]
  simpa [String.join] using this l ""

theorem stdoutText_toList (abiText : U8 → String) (ls : List DumpLine) :
    (stdoutText abiText ls).toList = ls.flatMap (chars abiText) := by
  unfold stdoutText
  rw [join_toList, List.flatMap_map, List.flatMap_assoc]
  congr 1
  funext d
  simp [chars]

/-- The first line of the text of `d`, and the other lines. -/
def first (abiText : U8 → String) (d : DumpLine) : List Char :=
  match d.stdout abiText with
  | s :: _ => s.toList
  | [] => []

@[inherit_doc first] def more (abiText : U8 → String) (d : DumpLine) : List Char :=
  ((d.stdout abiText).drop 1).flatMap fun s => s.toList ++ ['\n']

/-- Which kind of line. -/
def kind : DumpLine → Nat
  | .header .. => 0
  | .blank => 1
  | .func .. => 2
  | .columns _ => 3
  | .row .. => 4
  | .decodeError _ => 5

/-- It shows at the beginning. -/
def kindOf : List Char → Nat
  | [] => 1
  | c :: r => if c = 'H' then 0 else
    match r with
    | _ :: c :: _ => if c = 'f' then 2 else if c = 'S' then 3 else 4
    | _ => 4

theorem fmtHex16_zero (x : BitVec 32) : ∃ t, (fmtHex16 x).toList = '0' :: t := by
  have h : (Nat.toDigits 16 x.toNat).length ≤ 8 :=
    (Nat.length_toDigits_le_iff (by omega) (by omega)).2 (by have := x.isLt; omega)
  obtain ⟨k, hk⟩ : ∃ k, 16 - (Nat.toDigits 16 x.toNat).length = k + 1 :=
    ⟨15 - (Nat.toDigits 16 x.toNat).length, by omega⟩
  simp only [fmtHex16, String.toList_ofList, hk, List.replicate_succ, List.cons_append]
  exact ⟨_, rfl⟩

theorem kind_first (abiText : U8 → String) (d : DumpLine) (hd : onStdout d = true) :
    kindOf (first abiText d) = kind d := by
  cases d with
  | header => rfl
  | blank => rfl
  | func => simp [first, DumpLine.stdout, DumpLine.text, kindOf, kind]
  | columns => simp [first, DumpLine.stdout, DumpLine.text, kindOf, kind]
  | row start base cfa fp ra m =>
    obtain ⟨t, ht⟩ := fmtHex16_zero start
    simp [first, DumpLine.stdout, DumpLine.text, kindOf, kind, ht]
  | decodeError e => simp [onStdout] at hd

theorem chars_eq (abiText : U8 → String) (d : DumpLine) (hd : onStdout d = true) :
    chars abiText d = first abiText d ++ '\n' :: more abiText d := by
  cases d <;> simp [onStdout, chars, first, more, DumpLine.stdout, DumpLine.text, headerText] at hd ⊢

theorem newline_first (abiText : U8 → String) (d : DumpLine) : '\n' ∉ first abiText d := by
  have h10 : ∀ n, '\n' ∉ Nat.toDigits 10 n := not_mem_toDigits (by omega) (by omega) (by decide)
  have h16 : ∀ n, '\n' ∉ Nat.toDigits 16 n := not_mem_toDigits (by omega) (by omega) (by decide)
  have hoff : ∀ b, '\n' ∉ b.toList → ∀ x, '\n' ∉ (fmtOffset b x).toList := fun b hb x =>
    not_mem_fmtOffset (by decide) (by decide) (by decide) (by decide) hb x
  cases d with
  | header => simp [first, DumpLine.stdout, headerText]
  | blank => simp [first, DumpLine.stdout, DumpLine.text]
  | func => simp [first, DumpLine.stdout, DumpLine.text, fmtHex, h10, h16]
  | columns ty => cases ty <;> simp [first, DumpLine.stdout, DumpLine.text, fmtMarker]
  | row start base cfa fp ra m =>
    have h1 := hoff (fmtBase base) (not_mem_fmtBase (by decide) base) cfa
    have h2 := hoff "cfa" (by decide) fp
    have h3 := hoff "cfa" (by decide) ra
    have h4 := not_mem_fmtHex16 (c := '\n') (by decide) start
    cases m <;>
      simp [first, DumpLine.stdout, DumpLine.text, padRight12_toList, h1, h2, h3, h4,
        List.mem_replicate]
  | decodeError e => simp [first, DumpLine.stdout, DumpLine.text]

/-- The last column of a row. -/
theorem last_inj {ra ra' : Option I32} {m m' : Bool}
    (h : (fmtOffset "cfa" ra ++ (if m then " [s]" else "")).toList =
      (fmtOffset "cfa" ra' ++ (if m' then " [s]" else "")).toList) : ra = ra' ∧ m = m' := by
  have hs : ∀ x, ' ' ∉ (fmtOffset "cfa" x).toList :=
    not_mem_fmtOffset (by decide) (by decide) (by decide) (by decide) (by decide)
  have hu : ∀ r, "cfa".toList ++ r ≠ ['u'] := by simp
  cases m <;> cases m'
  · refine ⟨fmtOffset_inj hu (String.toList_injective ?_), rfl⟩
    simpa using h
  · exact absurd (show ' ' ∈ (fmtOffset "cfa" ra).toList by
      simp at h; rw [h]; simp) (hs _)
  · exact absurd (show ' ' ∈ (fmtOffset "cfa" ra').toList by
      simp at h; rw [← h]; simp) (hs _)
  · refine ⟨fmtOffset_inj hu (String.toList_injective ?_), rfl⟩
    simpa using h

theorem row_inj {s s' : I32} {b b' : BaseReg} {cfa cfa' fp fp' ra ra' : Option I32} {m m' : Bool}
    (h : (DumpLine.row s b cfa fp ra m).text = (DumpLine.row s' b' cfa' fp' ra' m').text) :
    shown (.row s b cfa fp ra m) = shown (.row s' b' cfa' fp' ra' m') := by
  simp only [DumpLine.text, Option.some.injEq] at h
  have h := congrArg String.toList h
  have e : ∀ (s : I32) (c f l e : String),
      ("  " ++ fmtHex16 s ++ " " ++ padRight12 c ++ " " ++ padRight12 f ++ " " ++ l ++ e).toList =
      [' ', ' '] ++ (fmtHex16 s).toList ++ ' ' ::
        ((padRight12 c).toList ++ ' ' :: ((padRight12 f).toList ++ ' ' :: (l ++ e).toList)) := by
    intro s c f l e
    simp
  rw [e, e, List.append_assoc, List.append_assoc, List.append_cancel_left_eq] at h
  obtain ⟨h1, h⟩ := List.append_inj h (by rw [fmtHex16_length, fmtHex16_length])
  simp only [List.cons.injEq, true_and] at h
  have hs : ∀ b, ' ' ∉ b.toList → ∀ x, ' ' ∉ (fmtOffset b x).toList := fun b hb x =>
    not_mem_fmtOffset (by decide) (by decide) (by decide) (by decide) hb x
  have hb : ∀ b, ' ' ∉ (fmtBase b).toList := not_mem_fmtBase (by decide)
  obtain ⟨h2, h⟩ := padded_inj (hs _ (hb _) _) (hs _ (hb _) _) h
  obtain ⟨h3, h⟩ := padded_inj (hs _ (by decide) _) (hs _ (by decide) _) h
  obtain ⟨h4, h5⟩ := last_inj h
  obtain ⟨h6, h7⟩ := fmtOffset_base_inj h2
  have h8 := fmtOffset_inj (by simp) h3
  have h9 := fmtHex16_inj (String.toList_injective h1)
  subst h4 h5 h6 h8 h9
  cases cfa with
  | none => rfl
  | some c => rw [h7 (by simp)]

/-- The other way round. -/
theorem stdout_shown (abiText : U8 → String) (d : DumpLine) :
    (shown d).stdout abiText = d.stdout abiText := by
  cases d with
  | row s b cfa fp ra m => cases cfa <;> simp [shown, DumpLine.stdout, DumpLine.text, fmtOffset]
  | _ => rfl

theorem func_inj {i i' : Nat} {pc pc' : I32} {n n' : U32}
    (h : (DumpLine.func i pc n).text = (DumpLine.func i' pc' n').text) : i = i' ∧ pc = pc' ∧ n = n' := by
  simp only [DumpLine.text, Option.some.injEq] at h
  have h := congrArg String.toList h
  have e : ∀ (i : Nat) (pc : I32) (n : U32),
      ("  func idx [" ++ String.ofList (Nat.toDigits 10 i) ++ "]: pc = 0x" ++ fmtHex pc ++ ", size = " ++
        String.ofList (Nat.toDigits 10 n.toNat) ++ " bytes").toList =
      "  func idx [".toList ++ (Nat.toDigits 10 i ++ ']' :: (": pc = 0x".toList ++
        (Nat.toDigits 16 pc.toNat ++ ',' :: (" size = ".toList ++ (Nat.toDigits 10 n.toNat ++ " bytes".toList))))) := by
    intro i pc n
    simp [fmtHex]
  rw [e, e, List.append_cancel_left_eq] at h
  obtain ⟨h1, h⟩ := sep_inj (not_mem_toDigits (by omega) (by omega) (by decide) _)
    (not_mem_toDigits (by omega) (by omega) (by decide) _) h
  rw [List.append_cancel_left_eq] at h
  obtain ⟨h2, h⟩ := sep_inj (not_mem_toDigits (by omega) (by omega) (by decide) _)
    (not_mem_toDigits (by omega) (by omega) (by decide) _) h
  rw [List.append_cancel_left_eq, List.append_cancel_right_eq] at h
  exact ⟨toDigits10_inj h1, BitVec.eq_of_toNat_eq (toDigits16_inj h2),
    BitVec.eq_of_toNat_eq (toDigits10_inj h)⟩

/-- A line of the header: a label and a value. -/
theorem label_inj {l v v' : String} {r r' : List Char} (hv : '\n' ∉ v.toList) (hv' : '\n' ∉ v'.toList)
    (h : (l ++ v).toList ++ '\n' :: r = (l ++ v').toList ++ '\n' :: r') : v = v' ∧ r = r' := by
  rw [String.toList_append, String.toList_append, List.append_assoc, List.append_assoc,
    List.append_cancel_left_eq] at h
  obtain ⟨h1, h2⟩ := sep_inj hv hv' h
  exact ⟨String.toList_injective h1, h2⟩

theorem header_inj {abiText : U8 → String} (hn : ∀ a, '\n' ∉ (abiText a).toList)
    (hi : ∀ a b, abiText a = abiText b → a = b)
    {v v' f f' : U8} {d d' e e' : U32} {a a' : U8} {p p' q q' : Option I8} {r r' : List Char}
    (h : more abiText (.header v f d e a p q) ++ r = more abiText (.header v' f' d' e' a' p' q') ++ r') :
    DumpLine.header v f d e a p q = .header v' f' d' e' a' p' q' ∧ r = r' := by
  have h10 : ∀ n, '\n' ∉ (String.ofList (Nat.toDigits 10 n)).toList := by
    simpa using fun n => not_mem_toDigits (b := 10) (by omega) (by omega) (by decide) n
  have h16 : ∀ n, '\n' ∉ (String.ofList (Nat.toDigits 16 n)).toList := by
    simpa using fun n => not_mem_toDigits (b := 16) (by omega) (by omega) (by decide) n
  have split : ∀ (v f : U8) (d e : U32) (a : U8) (p q : Option I8) (r : List Char),
      more abiText (.header v f d e a p q) ++ r =
      ("  Version:  " ++ String.ofList (Nat.toDigits 10 v.toNat)).toList ++ '\n' ::
      (("  Flags:    0x" ++ String.ofList (Nat.toDigits 16 f.toNat)).toList ++ '\n' ::
      (("  Num FDEs: " ++ String.ofList (Nat.toDigits 10 d.toNat)).toList ++ '\n' ::
      (("  Num FREs: " ++ String.ofList (Nat.toDigits 10 e.toNat)).toList ++ '\n' ::
      (("  Arch/ABI: " ++ abiText a).toList ++ '\n' ::
      (("  Fixed FP Offset: " ++ fmtFixed p).toList ++ '\n' ::
      (("  Fixed RA Offset: " ++ fmtFixed q).toList ++ '\n' ::
      ("\nFunction Index:\n".toList ++ r))))))) := by
    intro v f d e a p q r
    simp [more, DumpLine.stdout, headerText]
  rw [split, split] at h
  obtain ⟨h1, h⟩ := label_inj (h10 _) (h10 _) h
  obtain ⟨h2, h⟩ := label_inj (h16 _) (h16 _) h
  obtain ⟨h3, h⟩ := label_inj (h10 _) (h10 _) h
  obtain ⟨h4, h⟩ := label_inj (h10 _) (h10 _) h
  obtain ⟨h5, h⟩ := label_inj (hn _) (hn _) h
  obtain ⟨h6, h⟩ := label_inj (not_mem_fmtFixed _) (not_mem_fmtFixed _) h
  obtain ⟨h7, h⟩ := label_inj (not_mem_fmtFixed _) (not_mem_fmtFixed _) h
  rw [List.append_cancel_left_eq] at h
  have d10 : ∀ {m n : Nat}, String.ofList (Nat.toDigits 10 m) = String.ofList (Nat.toDigits 10 n) → m = n :=
    fun h => toDigits10_inj (by simpa using congrArg String.toList h)
  have d16 : ∀ {m n : Nat}, String.ofList (Nat.toDigits 16 m) = String.ofList (Nat.toDigits 16 n) → m = n :=
    fun h => toDigits16_inj (by simpa using congrArg String.toList h)
  rw [BitVec.eq_of_toNat_eq (d10 h1), BitVec.eq_of_toNat_eq (d16 h2), BitVec.eq_of_toNat_eq (d10 h3),
    BitVec.eq_of_toNat_eq (d10 h4), hi _ _ h5, fmtFixed_inj h6, fmtFixed_inj h7]
  exact ⟨rfl, h⟩

theorem text_inj {abiText : U8 → String} {d d' : DumpLine} {t t' : String} (ht : d.text = some t)
    (ht' : d'.text = some t') (hd : d.stdout abiText = d.text.toList)
    (hd' : d'.stdout abiText = d'.text.toList) (h : first abiText d = first abiText d') :
    d.text = d'.text := by
  unfold first at h
  rw [hd, hd', ht, ht'] at h
  rw [ht, ht', String.toList_injective h]

/-- The text begins with the text of one line only. -/
theorem chars_inj {abiText : U8 → String} (hn : ∀ a, '\n' ∉ (abiText a).toList)
    (hi : ∀ a b, abiText a = abiText b → a = b) {d d' : DumpLine} {r r' : List Char}
    (hd : onStdout d = true) (hd' : onStdout d' = true)
    (h : chars abiText d ++ r = chars abiText d' ++ r') : shown d = shown d' ∧ r = r' := by
  rw [chars_eq abiText d hd, chars_eq abiText d' hd', List.append_assoc, List.append_assoc] at h
  obtain ⟨h1, h2⟩ := sep_inj (newline_first abiText d) (newline_first abiText d') h
  have hk : kind d = kind d' := by rw [← kind_first abiText d hd, h1, kind_first abiText d' hd']
  have hmore : ∀ d, d.stdout abiText = d.text.toList → more abiText d = [] := by
    intro d hd
    unfold more
    rw [hd]
    cases d.text <;> rfl
  cases d <;> cases d' <;> simp only [kind] at hk <;>
    first
    | exact absurd hk (by decide)
    | skip
  · obtain ⟨h3, h4⟩ := header_inj hn hi h2
    exact ⟨by rw [h3], h4⟩
  · rename_i i pc n i' pc' n'
    have ht := text_inj (d := .func i pc n) (d' := .func i' pc' n') rfl rfl rfl rfl h1
    obtain ⟨e1, e2, e3⟩ := func_inj ht
    rw [hmore _ rfl, hmore _ rfl] at h2
    exact ⟨by rw [e1, e2, e3], h2⟩
  · rename_i t t'
    rw [hmore _ rfl, hmore _ rfl] at h2
    refine ⟨?_, h2⟩
    cases t <;> cases t' <;> first | rfl | exact absurd h1 (by simp [first, DumpLine.stdout, DumpLine.text, fmtMarker])
  · rename_i s b cfa fp ra m s' b' cfa' fp' ra' m'
    have ht := text_inj (d := .row s b cfa fp ra m) (d' := .row s' b' cfa' fp' ra' m') rfl rfl rfl rfl h1
    rw [hmore _ rfl, hmore _ rfl] at h2
    exact ⟨row_inj ht, h2⟩
  · simp [onStdout] at hd
  · exact ⟨rfl, h2⟩

end Text

/-- **C61** The text on stdout determines what was printed: two dumps have the same text iff they
consist of the same lines, up to the base register of rows whose CFA is unknown (printed as `u`) and
the decoding errors (which go to stderr).  `abiText` is the name of an ABI, which tells the ABIs
apart and contains no newline. -/
theorem C61_text_faithful (abiText : U8 → String) (hn : ∀ a, '\n' ∉ (abiText a).toList)
    (hi : ∀ a b, abiText a = abiText b → a = b) (ls ls' : List DumpLine) :
    stdoutText abiText ls = stdoutText abiText ls' ↔
      (ls.filter onStdout).map shown = (ls'.filter onStdout).map shown := by
  have filt : ∀ ls : List DumpLine, ls.flatMap (Text.chars abiText) =
      ((ls.filter onStdout).map shown).flatMap (Text.chars abiText) := by
    intro ls
    induction ls with
    | nil => rfl
    | cons d ls ih =>
      rw [List.flatMap_cons, ih]
      by_cases hd : onStdout d = true
      · rw [List.filter_cons_of_pos hd, List.map_cons, List.flatMap_cons]
        congr 1
        unfold Text.chars
        rw [Text.stdout_shown]
      · rw [List.filter_cons_of_neg hd]
        cases d <;> first | exact absurd rfl hd | rfl
  constructor
  · intro h
    have h := congrArg String.toList h
    rw [Text.stdoutText_toList, Text.stdoutText_toList] at h
    have key : ∀ ls ls' : List DumpLine, (∀ d ∈ ls, onStdout d = true) → (∀ d ∈ ls', onStdout d = true) →
        ls.flatMap (Text.chars abiText) = ls'.flatMap (Text.chars abiText) → ls.map shown = ls'.map shown := by
      intro ls
      induction ls with
      | nil =>
        intro ls' _ h2 h
        cases ls' with
        | nil => rfl
        | cons d ls' =>
          rw [List.flatMap_cons, Text.chars_eq _ d (h2 d (by simp))] at h
          simp at h
      | cons d ls ih =>
        intro ls' h1 h2 h
        cases ls' with
        | nil =>
          rw [List.flatMap_cons, Text.chars_eq _ d (h1 d (by simp))] at h
          simp at h
        | cons d' ls' =>
          rw [List.flatMap_cons, List.flatMap_cons] at h
          obtain ⟨h3, h4⟩ := Text.chars_inj hn hi (h1 d (by simp)) (h2 d' (by simp)) h
          rw [List.map_cons, List.map_cons, h3, ih ls' (fun d hd => h1 d (by simp [hd]))
            (fun d hd => h2 d (by simp [hd])) h4]
    have on : ∀ ls : List DumpLine, ∀ d ∈ (ls.filter onStdout).map shown, onStdout d = true := by
      intro ls d hd
      obtain ⟨c, hc, rfl⟩ := List.mem_map.1 hd
      have := (List.mem_filter.1 hc).2
      cases c with
      | row s b cfa fp ra m => cases cfa <;> rfl
      | decodeError e => simp [onStdout] at this
      | _ => rfl
    have idem : ∀ d, shown (shown d) = shown d := by
      intro d
      cases d with
      | row s b cfa fp ra m => cases cfa <;> rfl
      | _ => rfl
    rw [filt ls, filt ls'] at h
    have := key _ _ (on ls) (on ls') h
    simpa [List.map_map, Function.comp_def, idem] using this
  · intro h
    apply String.toList_injective
    rw [Text.stdoutText_toList, Text.stdoutText_toList, filt ls, filt ls', h]

/-- The text of the dump of the sample section. -/
example : stdoutText (fun a => if a = 3 then "AMD64_ENDIAN_LITTLE" else "?") (dump true Samples.v2F).1 =
"Header:
  Version:  2
  Flags:    0x1
  Num FDEs: 2
  Num FREs: 3
  Arch/ABI: AMD64_ENDIAN_LITTLE
  Fixed FP Offset: none
  Fixed RA Offset: -8

Function Index:
  func idx [0]: pc = 0x1000, size = 32 bytes
  STARTPC          CFA          FP           RA
  0000000000001000 sp+8         u            cfa-8
  0000000000001004 sp+16        cfa-16       cfa-8

  func idx [1]: pc = 0x1020, size = 16 bytes
  STARTPC          CFA          FP           RA
  0000000000001020 sp+24        u            cfa-8

" := by decide +kernel

/-- There are names as required (here the decimal numbers). -/
example : ∃ abiText : U8 → String, (∀ a, '\n' ∉ (abiText a).toList) ∧
    ∀ a b, abiText a = abiText b → a = b :=
  ⟨fun a => String.ofList (Nat.toDigits 10 a.toNat),
    by simpa using fun a => not_mem_toDigits (b := 10) (by omega) (by omega) (by decide) _,
    fun a b h => BitVec.eq_of_toNat_eq (toDigits10_inj (by simpa using congrArg String.toList h))⟩

/-! ### C60 -/

/-- The dump tool is given a readable file with the `.sframe` section `data`. -/
structure Spec.Readable (w : World) (path : String) (file : ObjFile) (data : List U8) : Prop where
  input : ∃ h d, w.openFile path = some h ∧ w.mmap h = some d ∧ w.parse d = some file
  section_ : ∃ s, file.sectionByName ".sframe" = some s ∧ s.data = some data

theorem sframedump_readable {dbg : Bool} {w : World} {path : String} {file : ObjFile} {data : List U8}
    (h : Readable w path file data) :
    sframedump dbg w path =
      match SFrame.load w.host data with
      | .panic p => ([], .panic p)
      | .diverge => ([], .diverge)
      | .ok (.error e) => ([], .ok (.error (.load e)))
      | .ok (.ok s) => ((dump dbg s).1, (dump dbg s).2.bind fun () => .ok (.ok ())) := by
  obtain ⟨⟨hd, d, h1, h2, h3⟩, s, h4, h5⟩ := h
  unfold sframedump
  rw [h1]; simp only []
  rw [h2]; simp only []
  rw [h3]; simp only []
  rw [h4]; simp only []
  rw [h5]
  try rfl

/-- A world in which the file `"x"` is an object of byte order `e` with the section `data`. -/
def Samples.dumpWorld (host e : Endian) (data : List U8) : World where
  openFile := fun p => if p = "x" then some 0 else none
  mmap := fun _ => some []
  parse := fun _ => some ⟨e, .aarch64, [⟨".sframe", 0, some data⟩]⟩
  ehFrame := fun _ e => ⟨e == .big, fun _ => [], fun _ _ => .error ⟨0⟩⟩
  emit := fun _ => none
  write := fun _ _ => true
  host := host

/-- **C60 is false of the code**: a valid section of a big-endian object is refused on a
little-endian host. -/
theorem C60_foreign_refused :
    ∃ (w : World) (file : ObjFile) (data : List U8) (s : SFrame file.endianness),
      Readable w "x" file data ∧ SFrame.load file.endianness data = .ok (.ok s) ∧
      ∀ dbg, sframedump dbg w "x" = ([], .ok (.error (.load .incorrectEndian))) := by
  refine ⟨Samples.dumpWorld .little .big Samples.v1, ⟨.big, .aarch64, [⟨".sframe", 0, some Samples.v1⟩]⟩,
    Samples.v1, Samples.v1F, ⟨⟨0, [], by decide +kernel, rfl, rfl⟩, _, rfl, rfl⟩, Samples.v1_loads, ?_⟩
  intro dbg
  cases dbg <;> decide +kernel

/-- **C60**, what holds: the tool succeeds on the object files whose section can be loaded in the byte
order of the host, and then prints the dump of that section; it never lists a section that cannot.  In
particular it works on all valid objects of the host's byte order, and refuses all valid objects of the
other one.  Missing: the objects of the other byte order. -/
theorem C60_host_order_partial {dbg : Bool} {w : World} {path : String} {file : ObjFile} {data : List U8}
    (h : Readable w path file data) :
    (∀ s : SFrame w.host, SFrame.load w.host data = .ok (.ok s) →
      (sframedump dbg w path).1 = (dump dbg s).1 ∧
      ((sframedump dbg w path).2 = .ok (.ok ()) ↔ (dump dbg s).2 = .ok ())) ∧
    (∀ e, SFrame.load w.host data = .ok (.error e) →
      sframedump dbg w path = ([], .ok (.error (.load e)))) ∧
    (file.endianness = w.host.swap → ∀ s : SFrame file.endianness,
      SFrame.load file.endianness data = .ok (.ok s) →
      sframedump dbg w path = ([], .ok (.error (.load .incorrectEndian)))) := by
  rw [sframedump_readable h]
  refine ⟨?_, ?_, ?_⟩
  · intro s hs
    rw [hs]
    refine ⟨rfl, ?_⟩
    simp only []
    cases (dump dbg s).2 with
    | ok u => cases u; simp
    | panic p => simp
    | diverge => simp
  · intro e he
    rw [he]
  · intro hsw s hs
    rw [C04_valid_refused (o' := w.host) (by rw [hsw]; cases w.host <;> decide) hs]

/-- The same section on a host of its own byte order. -/
example : Readable (Samples.dumpWorld .little .little Samples.v2) "x"
      ⟨.little, .aarch64, [⟨".sframe", 0, some Samples.v2⟩]⟩ Samples.v2 ∧
    (sframedump true (Samples.dumpWorld .little .little Samples.v2) "x").2 = .ok (.ok ()) ∧
    (sframedump true (Samples.dumpWorld .little .little Samples.v2) "x").1.length = 10 :=
  ⟨⟨⟨0, [], by decide +kernel, rfl, rfl⟩, _, rfl, rfl⟩, by decide +kernel, by decide +kernel⟩

end Verif
