import Verif.Spec.Privacy
import Mathlib.Analysis.SpecialFunctions.Exp
import Mathlib.Probability.ProbabilityMassFunction.Monad

/-!
# Specification: differential privacy

The definition in the documentation of `PrivacyBudget`, privacy_tracker.py:32-37, for events: an
algorithm is described by the distribution of its output.
-/

namespace Verif.Spec

/-- `p` and `q` are the distributions of the output on two databases: the probability of any event
under `p` is at most `exp ε` times that under `q`, plus `δ`. -/
def DpClose {O : Type} (ε δ : ℝ) (p q : PMF O) : Prop :=
  ∀ S : Set O, p.toOuterMeasure S ≤
    ENNReal.ofReal (Real.exp ε) * q.toOuterMeasure S + ENNReal.ofReal δ

/-- Two databases (a record for every user) differ at most in the record of user `u`. -/
def DifferAt {User Record : Type} (u : User) (D D' : User → Record) : Prop :=
  ∀ v, v ≠ u → D v = D' v

/-- A noisy computation together with the event recorded for it.  It sees the database and the
results of all computations before it. -/
structure Query (User Record O : Type) where
  event : NoisingEvent ℚ
  law : (User → Record) → List O → PMF O

/-- The computation keeps the promise that the event states: users sampled by it are protected by
its budget, all others are not looked at. -/
def Query.KeepsPromise {User Record O : Type} (q : Query User Record O) (position : User → ℚ) :
    Prop :=
  ∀ u D D' past, DifferAt u D D' →
    (Touches q.event (position u) →
      DpClose (q.event.budget.epsilon : ℝ) (q.event.budget.delta : ℝ) (q.law D past) (q.law D' past)) ∧
    (¬ Touches q.event (position u) → q.law D past = q.law D' past)

/-- Distribution of all results, when the computations are made one after the other. -/
noncomputable def transcript {User Record O : Type} (D : User → Record) :
    List (Query User Record O) → List O → PMF (List O)
  | [], past => PMF.pure past
  | q :: qs, past => (q.law D past).bind (fun o => transcript D qs (past ++ [o]))

end Verif.Spec
