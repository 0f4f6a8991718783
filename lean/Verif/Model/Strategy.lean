import Verif.Model.Halo

/-!
# Model of `src/simulator/m3_strategy.py` and `src/simulator/single_publisher_strategy.py`
-/

namespace Verif

/-- What a modeling strategy is configured with, modeling_strategy.py:33-44 and
m3_strategy.py:41-56.  Constructing a model with its keyword arguments and calling `_fit` is one
parameter each. -/
structure Strategy (Curve Surface : Type) where
  /-- construct and fit a single publisher model -/
  single : List ReachPoint → Except PyErr Curve
  /-- construct and fit a multi publisher model -/
  multi : List Curve → List ReachPoint → Except PyErr Surface
  /-- `GroundTruthReachCurveModel(data_set, i)` -/
  groundTruth : DataSet → Nat → Curve
  useGroundTruth : Bool

/-- `fit` returns a curve for one publisher and a surface otherwise. -/
inductive Fitted (Curve Surface : Type) where
  | curve (c : Curve)
  | surface (s : Surface)

namespace Strategy

variable {S Curve Surface : Type}

/-- Reach point handed to the single publisher model, m3_strategy.py:92-97: all k+ reaches, but
impressions and spends of publisher `i` only. -/
def projectPoint (r : ReachPoint) (i : Nat) : Except PyErr ReachPoint := do
  let kplus ← (List.range r.maxFrequency).mapM (fun k : Nat => r.reach ((k : Int) + 1))
  let imp ← pyIndex r.impressions i
  let spend ← match r.spends with
    | none => .error .typeError
    | some s => pyIndex s i
  ReachPoint.new [imp] kplus (some [spend])

/-- The loop of m3_strategy.py:86-98 over the publishers in `ids`. -/
def singleLoop (h : HaloSimulator S) (b : PrivacyBudget ℚ) : List Nat → HaloM (List ReachPoint)
  | [] => pure []
  | i :: rest => do
    let c ← HaloM.lift (pyIndex h.campaignSpends i)
    let r ← h.simulatedReachBySpend ((List.replicate h.publisherCount 0).set i c) b (1 / 2) 10
    let pt ← HaloM.lift (projectPoint r i)
    let pts ← singleLoop h b rest
    return pt :: pts

/-- The loop of m3_strategy.py:103-107. -/
def leaveOneOutLoop (h : HaloSimulator S) (b : PrivacyBudget ℚ) :
    List Nat → HaloM (List ReachPoint)
  | [] => pure []
  | i :: rest => do
    let r ← h.simulatedReachBySpend (h.campaignSpends.set i 0) b
    let rs ← leaveOneOutLoop h b rest
    return r :: rs

/-- The leave-one-out points, m3_strategy.py:100-107: only for more than two publishers. -/
def leaveOneOutPoints (h : HaloSimulator S) (b : PrivacyBudget ℚ) (p : Nat) :
    HaloM (List ReachPoint) :=
  if 2 < p then leaveOneOutLoop h b (List.range p) else pure []

/-- `M3Strategy.fit`, m3_strategy.py:58-130. -/
def fitM3 (st : Strategy Curve Surface) (h : HaloSimulator S) (budget : PrivacyBudget ℚ) :
    HaloM (Fitted Curve Surface) := do
  let p := h.publisherCount
  let b : PrivacyBudget ℚ := ⟨budget.epsilon / (2 * p + 1), budget.delta / (2 * p + 1)⟩
  let total ← h.simulatedReachBySpend h.campaignSpends b
  let singles ← singleLoop h b (List.range p)
  let allButOne ← leaveOneOutPoints h b p
  let curves ← HaloM.lift ((singles.zipIdx).mapM (fun pi =>
    if st.useGroundTruth then .ok (st.groundTruth h.dataSet pi.2) else st.single [pi.1]))
  if p = 1 then do
    let c ← HaloM.lift (pyIndex curves 0)
    return .curve c
  else do
    let s ← HaloM.lift (st.multi curves (allButOne ++ [total]))
    return .surface s

/-- `MAX_MEASUREMENT_FREQUENCY`, single_publisher_strategy.py:33. -/
def maxMeasurementFrequency : Int := 20

/-- `SinglePublisherStrategy.fit`, single_publisher_strategy.py:39-65. -/
def fitSingle (st : Strategy Curve Surface) (h : HaloSimulator S) (budget : PrivacyBudget ℚ) :
    HaloM (Fitted Curve Surface) := do
  if h.publisherCount ≠ 1 then HaloM.lift (.error .valueError)
  else do
    let total ← h.simulatedReachBySpend h.campaignSpends budget (1 / 2) maxMeasurementFrequency
    let c ← HaloM.lift (st.single [total])
    return .curve c

end Strategy

end Verif
