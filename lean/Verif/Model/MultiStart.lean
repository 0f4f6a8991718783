import Verif.Model.Py
import Mathlib.Data.List.Sort

/-!
# Model of the multi-start loops

`RestrictedPairwiseUnionReachSurface._fit_multi_init_lbds`
(restricted_pairwise_union_reach_surface.py:402-450) and
`GeneralizedMixtureReachSurface._fit_multi_init_a` (generalized_mixture_reach_surface.py:222-251)
are the same loop.  The local fit from the `n`-th random starting point is the parameter `runs n`.
-/

namespace Verif

/-- What one local fit returns, restricted_pairwise_union_reach_surface.py:441.  `loss = none` is a
`nan` loss. -/
structure StartRun (α : Type) where
  fit : α
  loss : Option ℚ
  converge : Bool

/-- The criteria of `_define_criteria`, restricted_pairwise_union_reach_surface.py:95-155. -/
structure StartCriteria where
  distance : ℚ
  numNear : Nat
  minInit : Nat
  maxInit : Nat

/-- Default criteria of the restricted surface, restricted_pairwise_union_reach_surface.py:34-39. -/
def restrictedCriteria : StartCriteria := ⟨1 / 100, 10, 30, 1000⟩

/-- Default criteria of the mixture surface, generalized_mixture_reach_surface.py:31-34. -/
def mixtureCriteria : StartCriteria := ⟨1 / 100, 10, 30, 10⟩

/-- Local variables and attributes of the loop.  `heap` are the finite losses in the heap, in
ascending order; the heap of the code additionally holds `numNear - heap.length` infinite entries.
The code only looks at the heap through `min`, `max`, `sorted` and `heappushpop`, none of which
depends on the arrangement of the entries. -/
structure StartState (α : Type) where
  numInit : Nat
  heap : List ℚ
  /-- `_fitted_lbd` (or `a`) with `_fitted_loss`; `none` as long as `_fitted_loss` is infinite and
  the other attribute is not set. -/
  best : Option (α × ℚ)
  /-- `local_converge`, unset before the first iteration -/
  converge : Option Bool

namespace MultiStart

/-- `_close_enough`, restricted_pairwise_union_reach_surface.py:433-435: with an infinite entry left,
the largest loss is infinite and not below any bound; `max` of an empty heap raises. -/
def closeEnough (c : StartCriteria) (heap : List ℚ) : Except PyErr Bool :=
  if c.numNear = 0 then .error .valueError
  else if heap.length < c.numNear then .ok false
  else .ok (decide (heap.getLastD 0 < (1 + c.distance) * heap.headD 0))

/-- `heappushpop(max_heap, -local_loss)`, restricted_pairwise_union_reach_surface.py:442: add the
loss and drop the largest entry.  For a `nan` the comparison in `heappushpop` is false and the heap
is left alone. -/
def push (c : StartCriteria) (heap : List ℚ) : Option ℚ → List ℚ
  | none => heap
  | some x => (heap.orderedInsert (· ≤ ·) x).take c.numNear

/-- `if local_loss < self._fitted_loss`, restricted_pairwise_union_reach_surface.py:444-447 (without
`_model_success`, which line 449 overwrites). -/
def improve {α : Type} (best : Option (α × ℚ)) (run : StartRun α) : Option (α × ℚ) :=
  match run.loss, best with
  | none, b => b
  | some x, none => some (run.fit, x)
  | some x, some b => if x < b.2 then some (run.fit, x) else some b

/-- The body of the loop, restricted_pairwise_union_reach_surface.py:440-448. -/
def body {α : Type} (c : StartCriteria) (runs : Nat → StartRun α) (s : StartState α) :
    StartState α :=
  { numInit := s.numInit + 1,
    heap := push c s.heap (runs s.numInit).loss,
    best := improve s.best (runs s.numInit),
    converge := some (runs s.numInit).converge }

/-- The loop, restricted_pairwise_union_reach_surface.py:437-448; `left` is
`_max_num_init - num_init`. -/
def loop {α : Type} (c : StartCriteria) (runs : Nat → StartRun α) :
    (left : Nat) → StartState α → Except PyErr (StartState α)
  | 0, s =>
    if s.numInit < c.minInit then .ok s
    else do
      let _ ← closeEnough c s.heap
      return s
  | left + 1, s =>
    if s.numInit < c.minInit then loop c runs left (body c runs s)
    else do
      let close ← closeEnough c s.heap
      if close then .ok s else loop c runs left (body c runs s)

/-- What the fit leaves behind: the chosen parameters with their loss, `_model_success`, the
number of starts and the finite part of `_k_smallest_losses`. -/
structure Result (α : Type) where
  best : Option (α × ℚ)
  modelSuccess : Bool × Bool
  kSmallest : List ℚ
  numInit : Nat

/-- `_fit_multi_init_lbds`, restricted_pairwise_union_reach_surface.py:424-450.  With no iteration
`local_converge` is unbound in line 449. -/
def fit {α : Type} (c : StartCriteria) (runs : Nat → StartRun α) : Except PyErr (Result α) := do
  let s ← loop c runs c.maxInit ⟨0, [], none, none⟩
  match s.converge with
  | none => .error .nameError
  | some converge => do
    let close ← closeEnough c s.heap
    return ⟨s.best, (converge, close), s.heap, s.numInit⟩

end MultiStart

end Verif
