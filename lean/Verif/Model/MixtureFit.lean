import Verif.Model.Mixture
import Verif.Model.MultiStart

/-!
# Model of the fit of `src/models/generalized_mixture_reach_surface.py`

The alternation between the weights `a` and the thetas.  The solver `cvxopt.solvers.qp` is a
parameter.  A vector or matrix containing a `nan` is `none`; the solver may be handed one, and may
return one.  Not modelled: an exception raised by the solver.
-/

namespace Verif

namespace MixtureSurface

/-- `update_theta_from_a`, generalized_mixture_reach_surface.py:117-140; `rs` are the reach vectors
of the training points. -/
def updateTheta (s : MixtureSurface) (a : List ℚ) (rs : List (List ℚ)) : Option (List (List ℚ)) :=
  rs.mapM (s.thetas a)

/-- The objective handed to `solvers.qp`; the constraints are always those of `Feasible`. -/
structure Program where
  P : Nat → Nat → ℚ
  q : Nat → ℚ

/-- The program of `update_a_from_theta`, generalized_mixture_reach_surface.py:198-211 with
156-169 and 192-196; `ys` are the observed reaches. -/
def program (s : MixtureSurface) (theta rs : List (List ℚ)) (ys : List ℚ) : Program :=
  let z := (theta.zip rs).map (fun tr => s.zFromTheta tr.1 tr.2)
  { P := quadraticTerm z, q := s.linearTerm z ys }

/-- What `_fit_one_init_a` returns, with the number of rounds added. -/
structure AltRun where
  a : Option (List ℚ)
  loss : Option ℚ
  converge : Bool
  rounds : Nat

/-- `_loss(cur_a)`, generalized_mixture_reach_surface.py:213-217: a `nan` in the program or in the
weights makes it `nan`. -/
def roundLoss (s : MixtureSurface) : Option Program → Option (List ℚ) → Option ℚ
  | some prog, some a => some (loss (s.p * s.c) prog.P prog.q a)
  | _, _ => none

/-- `cur_loss >= prev_loss - self._min_improvement`, generalized_mixture_reach_surface.py:277;
false for a `nan`. -/
def noImprovement (minImprovement prev : ℚ) : Option ℚ → Bool
  | some cur => decide (cur ≥ prev - minImprovement)
  | none => false

/-- The loop of `_fit_one_init_a`, generalized_mixture_reach_surface.py:268-277; `left` is
`_max_num_rounds - num_rounds`. -/
def altLoop (s : MixtureSurface) (solve : Option Program → Option (List ℚ)) (minImprovement : ℚ)
    (rs : List (List ℚ)) (ys : List ℚ) :
    (left : Nat) → (a : Option (List ℚ)) → (theta : Option (List (List ℚ))) → (prev : ℚ) →
    (cur : Option ℚ) → (n : Nat) → AltRun
  | 0, a, _, prev, cur, n => ⟨a, cur, noImprovement minImprovement prev cur, n⟩
  | left + 1, a, theta, prev, cur, n =>
    match cur with
    | none => ⟨a, none, false, n⟩
    | some c =>
      if c < prev - minImprovement then
        let prog := theta.map (fun th => s.program th rs ys)
        let a' := solve prog
        altLoop s solve minImprovement rs ys left a' (a'.bind (fun x => s.updateTheta x rs)) c
          (s.roundLoss prog a') (n + 1)
      else ⟨a, some c, noImprovement minImprovement prev (some c), n⟩

/-- `_fit_one_init_a`, generalized_mixture_reach_surface.py:253-277. -/
def fitOneInit (s : MixtureSurface) (solve : Option Program → Option (List ℚ))
    (minImprovement : ℚ) (maxRounds : Nat) (rs : List (List ℚ)) (ys : List ℚ) (a : List ℚ) :
    AltRun :=
  altLoop s solve minImprovement rs ys maxRounds (some a) (s.updateTheta a rs)
    10000000000 (some (10000000000 - 1)) 0

/-- `MIN_IMPROVEMENT_PER_ROUND`, generalized_mixture_reach_surface.py:29. -/
def defaultMinImprovement : ℚ := 1 / 1000

/-- `MAX_NUM_ROUNDS`, generalized_mixture_reach_surface.py:30. -/
def defaultMaxRounds : Nat := 1000

/-- A local fit as the multi-start loop sees it. -/
def AltRun.start (r : AltRun) : StartRun (Option (List ℚ)) := ⟨r.a, r.loss, r.converge⟩

/-- `_fit`, generalized_mixture_reach_surface.py:279-281, with the default criteria of lines 90-104;
`inits n` is the `n`-th vector returned by `init_a_sampler` (lines 219-220).  `none`: no run ended
with a number, so that the attribute `a` is not set.  The reach vectors and observed reaches are
computed here once; the code computes the same values in every run. -/
def fit (s : MixtureSurface) (solve : Option Program → Option (List ℚ)) (inits : Nat → List ℚ) :
    Except PyErr (Option MixtureSurface) := do
  let rs ← s.data.mapM (fun pt => PairwiseSurface.getReachVector s.curves pt.impressions)
  let ys ← s.data.mapM (fun pt => pt.reach 1)
  let res ← MultiStart.fit mixtureCriteria (fun n =>
    (s.fitOneInit solve defaultMinImprovement defaultMaxRounds rs ys (inits n)).start)
  match res.best with
  | some (some a, _) => .ok (some { s with a := a })
  | _ => .ok none

end MixtureSurface

end Verif
