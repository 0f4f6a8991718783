import Verif.Model.ReachPoint
import Mathlib.Data.Nat.Choose.Basic

/-!
# Random display of an inventory of impressions

Code shared by `src/models/kinflated_gamma_poisson_model.py` and
`src/models/gamma_poisson_model.py`: every impression of a user's inventory is shown with the same
probability.
-/

namespace Verif

/-- `binom_dist.pmf(k, n, p)`, kinflated_gamma_poisson_model.py:139 (scipy), and the exponential of
`binom_dist.logpmf`, gamma_poisson_model.py:192-197, for `p` between 0 and 1: taken to be exact.
Outside of this range scipy returns NaN; see `servedShare`. -/
def binomPmf (n k : Nat) (p : ℚ) : ℚ := (n.choose k : ℚ) * p ^ k * (1 - p) ^ (n - k)

/-- `knreach`, kinflated_gamma_poisson_model.py:120-140, and `_knreach`,
gamma_poisson_model.py:172-197, for one `k` and one `n`; `pmf` is the distribution of the inventory
of a user. -/
def knreach (pmf : List ℚ) (k n : Nat) (p : ℚ) : ℚ := binomPmf n k p * pmf.getD n 0

/-- `np.array_equiv(k, np.arange(k[0], k[-1] + 1))`, kinflated_gamma_poisson_model.py:165 and
gamma_poisson_model.py:225.  An array of length one is compared with every entry of the other. -/
def isConsecutive (ks : List Nat) : Bool :=
  let ar := List.range' (ks.headD 0) (ks.getLastD 0 + 1 - ks.headD 0)
  if ks.length = ar.length then ks = ar
  else if ar.length = 1 then ks.all (fun k => k = ks.headD 0)
  else false

/-- One row of the matrix of `kreach`, with the entries left of the diagonal removed (`np.triu`). -/
def kreachRow (pmf : List ℚ) (ns : List Nat) (p : ℚ) (k i : Nat) : ℚ :=
  (ns.zipIdx.map (fun nj => if nj.2 < i then 0 else knreach pmf k nj.1 p)).sum

/-- `kreach`, kinflated_gamma_poisson_model.py:142-178, and `_kreach`,
gamma_poisson_model.py:199-245: probability that a user sees exactly `k` impressions. -/
def kreach (pmf : List ℚ) (ks : List Nat) (p : ℚ) : Except PyErr (List ℚ) :=
  if ks = [] then .ok []
  else if !isConsecutive ks then .error .runtimeError
  else
    let minFreq := ks.foldl min (ks.headD 0)
    let ns := List.range' minFreq (pmf.length - minFreq)
    .ok (ks.zipIdx.map (fun ki => kreachRow pmf ns p ki.1 ki.2))

/-- `np.cumsum(l)`, starting from the partial sum `acc`. -/
def npCumsum (acc : ℚ) : List ℚ → List ℚ
  | [] => []
  | a :: l => (acc + a) :: npCumsum (acc + a) l

/-- `np.cumsum(hist[::-1])[::-1]`, kinflated_gamma_poisson_model.py:632, and
`_kplus_reaches_from_frequencies`, reach_curve.py:110-112. -/
def kplusFromHist (hist : List ℚ) : List ℚ := (npCumsum 0 hist.reverse).reverse

end Verif
