import Mathlib.Data.Rat.Defs
import Mathlib.Algebra.Order.Ring.Unbundled.Rat
import Mathlib.Data.List.Sort

/-!
# Python primitives used by the modelled code

Small total functions standing for the Python built-ins that the repository uses.  Exceptions
are values of `Except PyErr`.  Floats are exact rationals (`ℚ`), integers are unbounded (`ℤ`).
-/

namespace Verif

/-- Exceptions raised by the modelled code.  Messages are dropped, except for the line number
that `read_publisher_data` reports (publisher_data.py:191-192). -/
inductive PyErr where
  | valueError
  | indexError
  | nameError
  | keyError
  | overflowError
  | assertionError
  | attributeError
  | fileNotFound
  | zeroDivision
  | typeError
  | runtimeError
  | atLine (n : Nat)
  deriving DecidableEq, Repr

/-- `l[i]` with Python's rule for negative indices. -/
def pyIndex {α : Type} (l : List α) (i : Int) : Except PyErr α :=
  let j := if i < 0 then i + l.length else i
  if j < 0 then .error .indexError
  else match l[j.toNat]? with
    | some x => .ok x
    | none => .error .indexError

/-- `l[i] = f(l[i])` with Python's rule for negative indices. -/
def pyModify {α : Type} (l : List α) (i : Int) (f : α → α) : Except PyErr (List α) :=
  let j := if i < 0 then i + l.length else i
  if j < 0 then .error .indexError
  else if j.toNat < l.length then .ok (l.modify j.toNat f)
  else .error .indexError

/-- `l[:i]` with Python's rule for negative bounds. -/
def pySliceTo {α : Type} (l : List α) (i : Int) : List α :=
  if i < 0 then l.take (i + l.length).toNat else l.take i.toNat

/-- `l * n`/`[x] * n`: a negative multiplicity gives the empty list. -/
def pyRepeat {α : Type} (x : α) (n : Int) : List α := List.replicate n.toNat x

/-- A Python `dict` with insertion order, as association list (keys are kept unique by
`dictAdd`). -/
abbrev Dict (κ : Type) (ν : Type) := List (κ × ν)

/-- `d[k] += v` on a `defaultdict(int)` / `Counter`. -/
def dictAdd {κ : Type} [DecidableEq κ] (d : Dict κ Int) (k : κ) (v : Int) : Dict κ Int :=
  match d with
  | [] => [(k, v)]
  | (k', v') :: rest =>
    if k' = k then (k', v' + v) :: rest else (k', v') :: dictAdd rest k v

/-- `d.get(k, 0)`. -/
def dictGet {κ : Type} [DecidableEq κ] (d : Dict κ Int) (k : κ) : Int :=
  match d with
  | [] => 0
  | (k', v') :: rest => if k' = k then v' else dictGet rest k

/-- `collections.Counter(l)`: one pass, adding one per element. -/
def counter {κ : Type} [DecidableEq κ] (l : List κ) : Dict κ Int :=
  l.foldl (fun d k => dictAdd d k 1) []

/-- `for k, v in e.items(): d[k] += v`. -/
def dictAddAll {κ : Type} [DecidableEq κ] (d e : Dict κ Int) : Dict κ Int :=
  e.foldl (fun d kv => dictAdd d kv.1 kv.2) d

/-- `d[k] = f(d.get(k))`: update in place, or insert at the end. -/
def dictUpd {κ ν : Type} [DecidableEq κ] (d : Dict κ ν) (k : κ) (f : Option ν → ν) : Dict κ ν :=
  match d with
  | [] => [(k, f none)]
  | (k', v) :: rest => if k' = k then (k', f (some v)) :: rest else (k', v) :: dictUpd rest k f

/-- `d[k]`: `KeyError` if absent. -/
def dictLookup {κ ν : Type} [DecidableEq κ] (d : Dict κ ν) (k : κ) : Except PyErr ν :=
  match d with
  | [] => .error .keyError
  | (k', v) :: rest => if k' = k then .ok v else dictLookup rest k

/-- The loop of CPython's `bisect.bisect_right(a, x, lo, hi)`:
`while lo < hi: mid = (lo+hi)//2; if x < a[mid]: hi = mid else: lo = mid+1`.
`a[mid]` is always in range when `hi ≤ len(a)`. -/
def bisectRightLoop (a : List ℚ) (x : ℚ) (lo hi : Nat) : Nat :=
  if h : lo < hi then
    let mid := (lo + hi) / 2
    if x < a.getD mid 0 then bisectRightLoop a x lo mid
    else bisectRightLoop a x (mid + 1) hi
  else lo
  termination_by hi - lo
  decreasing_by all_goals omega

/-- `bisect.bisect_right(a, x)`. -/
def bisectRight (a : List ℚ) (x : ℚ) : Nat := bisectRightLoop a x 0 a.length

/-- `max(l)` of a Python list: `ValueError` on the empty list. -/
def pyMax (l : List ℚ) : Except PyErr ℚ :=
  match l with
  | [] => .error .valueError
  | x :: xs => .ok (xs.foldl max x)

/-- `len(set(l))`. -/
def lenSet {α : Type} [DecidableEq α] (l : List α) : Nat := l.dedup.length

/-- `round(x)`: nearest integer, ties to even. -/
def pyRound (x : ℚ) : Int :=
  if x - x.floor < 1 / 2 then x.floor
  else if 1 / 2 < x - x.floor then x.floor + 1
  else if x.floor % 2 = 0 then x.floor
  else x.floor + 1

/-- `itertools.combinations(l, r)`, in Python's (lexicographic) order. -/
def combinations {α : Type} : Nat → List α → List (List α)
  | 0, _ => [[]]
  | _ + 1, [] => []
  | n + 1, a :: l => (combinations n l).map (a :: ·) ++ combinations (n + 1) l

/-- `chain.from_iterable(combinations(l, r) for r in range(1, len(l) + 1))`. -/
def nonemptySubsets {α : Type} (l : List α) : List (List α) :=
  (List.range l.length).flatMap (fun r => combinations (r + 1) l)

/-- `np.minimum.accumulate(l)`. -/
def minAccumulate : List Int → List Int
  | [] => []
  | a :: l => a :: (minAccumulate l).map (min a)

end Verif
