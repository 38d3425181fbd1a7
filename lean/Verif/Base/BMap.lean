/-!
# `BTreeMap`

The contract of `alloc::collections::BTreeMap` on the operations the code uses.  A map is
the list of its entries in key order.  Keys are `i32` or `u32`, both `BitVec 32`, so the
order is given by a function `ord` into `Int` (`BitVec.toInt` for `i32`, `toNat` for `u32`).
-/

namespace Verif

/-- A `BTreeMap<K, V>` as its entries in key order. -/
abbrev BMap (K V : Type) := List (K × V)

namespace BMap

variable {K V : Type}

/-- `map.insert(k, v)` (the previous value under `k`, if any, is dropped). -/
def insert (ord : K → Int) (k : K) (v : V) : BMap K V → BMap K V
  | [] => [(k, v)]
  | (k', v') :: m =>
    if ord k < ord k' then (k, v) :: (k', v') :: m
    else if ord k = ord k' then (k, v) :: m
    else (k', v') :: insert ord k v m

/-- `map.get(&k)`; `map.entry(k)` is `Occupied` iff this is `some`. -/
def get (ord : K → Int) (k : K) : BMap K V → Option V
  | [] => none
  | (k', v') :: m => if ord k = ord k' then some v' else get ord k m

/-- `map.remove(&k)` -/
def remove (ord : K → Int) (k : K) (m : BMap K V) : BMap K V :=
  m.filter fun e => decide (ord e.1 ≠ ord k)

/-- The entries of `map.range(k..)` -/
def rangeFrom (ord : K → Int) (k : K) (m : BMap K V) : BMap K V :=
  m.filter fun e => decide (ord k ≤ ord e.1)

/-- Mutating the value under `k` through the reference obtained from `range_mut`. -/
def setAt (ord : K → Int) (k : K) (v : V) (m : BMap K V) : BMap K V :=
  m.map fun e => if ord e.1 = ord k then (e.1, v) else e

/-- `map.values()` -/
def values (m : BMap K V) : List V := m.map Prod.snd

/-- `map.first_key_value()` -/
def first (m : BMap K V) : Option (K × V) := m.head?

/-- `map.last_key_value()` -/
def last (m : BMap K V) : Option (K × V) := m.getLast?

/-- Strictly ascending keys: the representation invariant of a `BTreeMap`. -/
def Sorted (ord : K → Int) (m : BMap K V) : Prop :=
  m.Pairwise fun a b => ord a.1 < ord b.1

end BMap

/-- `Ord` of `i32` keys. -/
def ordI32 (k : BitVec 32) : Int := k.toInt

/-- `Ord` of `u32` keys. -/
def ordU32 (k : BitVec 32) : Int := (k.toNat : Int)

end Verif
