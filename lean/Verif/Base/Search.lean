import Verif.Base.Rust
/-!
# `slice::binary_search_by`

The algorithm is not part of its documented contract when the comparator is inconsistent with
the order of the slice, so both algorithms that the standard library has shipped are given.
-/

namespace Verif

/-- Which standard library: `v152` is 1.52–1.81 (the commit is from March 2024, Rust 1.77),
`v182` is 1.82 and later. -/
inductive SearchAlg | v152 | v182
  deriving DecidableEq, Repr

/-- The loop of `core` 1.52–1.81:
```text
while left < right {
    let mid = left + size / 2;
    let cmp = f(get_unchecked(mid));
    left = if cmp == Less { mid + 1 } else { left };
    right = if cmp == Greater { mid } else { right };
    if cmp == Equal { return Ok(mid); }
    size = right - left;
}
Err(left)
``` -/
def search152 {α} (f : α → Rust Ordering) (l : List α) (fuel left right size : Nat) :
    Rust (Except Nat Nat) :=
  if left < right then
    match fuel with
    | 0 => .diverge
    | fuel + 1 =>
      let mid := left + size / 2
      match l[mid]? with
      | none => .panic .sliceIndex
      | some x =>
        (f x).bind fun cmp =>
          let left' := if cmp == .lt then mid + 1 else left
          let right' := if cmp == .gt then mid else right
          if cmp == .eq then .ok (.ok mid)
          else search152 f l fuel left' right' (right' - left')
  else .ok (.error left)

/-- The loop of `core` 1.82 and later:
```text
while size > 1 {
    let half = size / 2;
    let mid = base + half;
    let cmp = f(get_unchecked(mid));
    base = if cmp == Greater { base } else { mid };
    size -= half;
}
let cmp = f(get_unchecked(base));
if cmp == Equal { Ok(base) } else { Err(base + (cmp == Less) as usize) }
```
(with `Err(0)` for the empty slice). -/
def search182 {α} (f : α → Rust Ordering) (l : List α) (fuel base size : Nat) :
    Rust (Except Nat Nat) :=
  if 1 < size then
    match fuel with
    | 0 => .diverge
    | fuel + 1 =>
      let half := size / 2
      let mid := base + half
      match l[mid]? with
      | none => .panic .sliceIndex
      | some x =>
        (f x).bind fun cmp =>
          search182 f l fuel (if cmp == .gt then base else mid) (size - half)
  else
    match l[base]? with
    | none => .panic .sliceIndex
    | some x =>
      (f x).bind fun cmp =>
        if cmp == .eq then .ok (.ok base)
        else .ok (.error (base + if cmp == .lt then 1 else 0))

/-- `slice.binary_search_by(f)` -/
def binarySearchBy {α} (alg : SearchAlg) (f : α → Rust Ordering) (l : List α) :
    Rust (Except Nat Nat) :=
  match alg with
  | .v152 => search152 f l l.length 0 l.length l.length
  | .v182 => if l.length = 0 then .ok (.error 0) else search182 f l l.length 0 l.length

end Verif
