/-!
# Run-time vocabulary of Rust

Outcomes of running a piece of Rust code, the machine integers, and the few slice
operations of `core` that the modelled code uses.  Nothing in this file models a line of
`/repo`; it is the trusted reading of the language and of `core`.
-/

namespace Verif

/-- Why a Rust thread panicked. -/
inductive Panic
  /-- arithmetic overflow, only in builds with overflow checks -/
  | overflow
  /-- `assert!`, `assert_eq!` or (in debug builds) `debug_assert!` failed -/
  | assertion
  /-- `unreachable!()` -/
  | unreachable
  /-- slice indexing out of bounds -/
  | sliceIndex
  /-- `Option::unwrap` / `expect` on `None`, `Result::unwrap` on `Err` -/
  | unwrap
  /-- `ilog2` of zero -/
  | ilog2
  /-- an explicit `panic!(…)` -/
  | explicit
  deriving DecidableEq, Repr

/-- The outcome of running Rust code: it returns, it panics, or it does not terminate.
A Rust `Result` is a *returned* value and is modelled by `Except` inside `ok`. -/
inductive Rust (α : Type u)
  | ok (a : α)
  | panic (p : Panic)
  | diverge
  deriving DecidableEq, Repr

deriving instance DecidableEq for Except

namespace Rust

/-- Sequencing: a panic or divergence of the first part is the outcome of the whole. -/
def bind {α : Type u} {β : Type v} (x : Rust α) (f : α → Rust β) : Rust β :=
  match x with
  | .ok a => f a
  | .panic p => .panic p
  | .diverge => .diverge

instance : Monad Rust where
  pure := Rust.ok
  bind := Rust.bind

@[simp] theorem pure_eq {α : Type u} (a : α) : (pure a : Rust α) = .ok a := rfl
@[simp] theorem bind_eq {α β : Type u} (x : Rust α) (f : α → Rust β) : (x >>= f) = x.bind f := rfl
@[simp] theorem bind_ok {α : Type u} {β : Type v} (a : α) (f : α → Rust β) :
    Rust.bind (.ok a) f = f a := rfl
@[simp] theorem bind_panic {α : Type u} {β : Type v} (p : Panic) (f : α → Rust β) :
    Rust.bind (.panic p : Rust α) f = .panic p := rfl
@[simp] theorem bind_diverge {α : Type u} {β : Type v} (f : α → Rust β) :
    Rust.bind (.diverge : Rust α) f = .diverge := rfl

theorem bind_eq_ok {α : Type u} {β : Type v} {x : Rust α} {f : α → Rust β} {b : β} :
    Rust.bind x f = .ok b ↔ ∃ a, x = .ok a ∧ f a = .ok b := by
  cases x <;> simp [Rust.bind]

/-- The run neither panics nor hangs. -/
def Returns {α : Type u} (x : Rust α) : Prop := ∃ a, x = .ok a

/-- The run panics. -/
def Panics {α : Type u} (x : Rust α) : Prop := ∃ p, x = .panic p

end Rust

/-! ### Machine integers

`uN` and `iN` are both `BitVec N`; `.toNat` reads one as unsigned and `.toInt` as signed.
A cast `as` between same-width types is therefore the identity. -/

abbrev U8 := BitVec 8
abbrev I8 := BitVec 8
abbrev U16 := BitVec 16
abbrev I16 := BitVec 16
abbrev U32 := BitVec 32
abbrev I32 := BitVec 32
abbrev U64 := BitVec 64
abbrev I64 := BitVec 64

/-- `a - b` on `i32`.  With overflow checks (`dbg`) an out-of-range result panics,
otherwise it wraps. -/
def subI32 (dbg : Bool) (a b : I32) : Rust I32 :=
  if dbg && !(decide (-2147483648 ≤ a.toInt - b.toInt) && decide (a.toInt - b.toInt ≤ 2147483647))
  then .panic .overflow
  else .ok (a - b)

/-- `a - b` on `u64`. -/
def subU64 (dbg : Bool) (a b : U64) : Rust U64 :=
  if dbg && decide (a.toNat < b.toNat) then .panic .overflow else .ok (a - b)

/-- `a + b` on `u64`. -/
def addU64 (dbg : Bool) (a b : U64) : Rust U64 :=
  if dbg && decide (2 ^ 64 ≤ a.toNat + b.toNat) then .panic .overflow else .ok (a + b)

/-- `a + b` on `u32`. -/
def addU32 (dbg : Bool) (a b : U32) : Rust U32 :=
  if dbg && decide (2 ^ 32 ≤ a.toNat + b.toNat) then .panic .overflow else .ok (a + b)

/-- `u32::try_from(n : usize)`. -/
def u32TryFrom (n : Nat) : Option U32 :=
  if n < 2 ^ 32 then some (BitVec.ofNat 32 n) else none

/-- `u32::try_from(x : u64)`. -/
def u32TryFromU64 (x : U64) : Option U32 :=
  if x.toNat < 2 ^ 32 then some (x.setWidth 32) else none

/-- `i32::try_from(x : i64)`. -/
def i32TryFromI64 (x : I64) : Option I32 :=
  if -2147483648 ≤ x.toInt ∧ x.toInt ≤ 2147483647 then some (x.setWidth 32) else none

/-- `i32::MAX as u64`, `i32::MAX as u32`. -/
def i32Max : Nat := 2147483647

/-- `u32::MAX`. -/
def u32Max : U32 := 0xFFFFFFFF#32

/-! ### Slices -/

/-- `s.get(n..)` -/
def getFrom {α} (s : List α) (n : Nat) : Option (List α) :=
  if n ≤ s.length then some (s.drop n) else none

/-- `s.get(..n)` -/
def getTo {α} (s : List α) (n : Nat) : Option (List α) :=
  if n ≤ s.length then some (s.take n) else none

/-- `s.get(a..b)` -/
def getRange {α} (s : List α) (a b : Nat) : Option (List α) :=
  if a ≤ b ∧ b ≤ s.length then some ((s.take b).drop a) else none

/-- `&s[n..]` -/
def sliceFrom {α} (s : List α) (n : Nat) : Rust (List α) :=
  if n ≤ s.length then .ok (s.drop n) else .panic .sliceIndex

end Verif
