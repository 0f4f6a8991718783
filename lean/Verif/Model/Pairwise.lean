import Verif.Model.ReachPoint

/-!
# Model of `src/models/pairwise_union_reach_surface.py`

Matrices are numpy 2-d arrays: dimensions and an entry function.  The quadratic program solver
`cvxopt.solvers.qp` (line 212) is not modelled; what is modelled is the problem handed to it and
the use of its answer.
-/

namespace Verif

/-- A 2-d numpy array. -/
structure NpMat where
  rows : Nat
  cols : Nat
  entry : Nat → Nat → ℚ

namespace NpMat

/-- `np.eye(n)`. -/
def eye (n : Nat) : NpMat := ⟨n, n, fun r c => if r = c then 1 else 0⟩

/-- `np.ones(n)` as it enters `np.kron`: one row. -/
def onesRow (n : Nat) : NpMat := ⟨1, n, fun _ _ => 1⟩

/-- `np.zeros(shape=(rows, cols))`. -/
def zeros (rows cols : Nat) : NpMat := ⟨rows, cols, fun _ _ => 0⟩

/-- `-M`. -/
def neg (M : NpMat) : NpMat := ⟨M.rows, M.cols, fun r c => - M.entry r c⟩

/-- `np.kron(A, B)`: entry `(r, c)` is `A[r // B.rows, c // B.cols] * B[r % B.rows, c % B.cols]`. -/
def kron (A B : NpMat) : NpMat :=
  ⟨A.rows * B.rows, A.cols * B.cols,
    fun r c => A.entry (r / B.rows) (c / B.cols) * B.entry (r % B.rows) (c % B.cols)⟩

/-- `np.vstack((A, B))`: `ValueError` if the numbers of columns differ. -/
def vstack (A B : NpMat) : Except PyErr NpMat :=
  if A.cols = B.cols then
    .ok ⟨A.rows + B.rows, A.cols, fun r c => if r < A.rows then A.entry r c else B.entry (r - A.rows) c⟩
  else .error .valueError

/-- `M[r, c] = v`. -/
def set (M : NpMat) (r c : Nat) (v : ℚ) : Except PyErr NpMat :=
  if r < M.rows ∧ c < M.cols then
    .ok { M with entry := fun r' c' => if r' = r ∧ c' = c then v else M.entry r' c' }
  else .error .indexError

end NpMat

namespace Pairwise

/-- `_get_inequality_constraints`, pairwise_union_reach_surface.py:112-133. -/
def inequalityConstraints (p : Nat) : Except PyErr (NpMat × List ℚ) := do
  let G1 := (NpMat.eye (p * p)).neg
  let G2 := NpMat.kron (NpMat.eye p) (NpMat.onesRow p)
  let G3 := NpMat.kron (NpMat.onesRow p) (NpMat.eye p)
  let h := List.replicate (p * p) (0 : ℚ) ++ List.replicate (2 * p) 1
  let G12 ← NpMat.vstack G1 G2
  let G ← NpMat.vstack G12 G3
  return (G, h)

/-- `for i in range(p): for j in range(i + 1, p)`, pairwise_union_reach_surface.py:155-156. -/
def upperPairs (p : Nat) : List (Nat × Nat) :=
  (List.range p).flatMap (fun i => (List.range (p - (i + 1))).map (fun d => (i, i + 1 + d)))

/-- Body of the loop of pairwise_union_reach_surface.py:157-159. -/
def symmetryStep (p : Nat) (st : NpMat × Nat) (ij : Nat × Nat) : Except PyErr (NpMat × Nat) := do
  let M ← st.1.set st.2 (ij.1 * p + ij.2) 1
  let M ← M.set st.2 (ij.2 * p + ij.1) (-1)
  return (M, st.2 + 1)

/-- `_get_equality_constraints`, pairwise_union_reach_surface.py:135-166.  `int((p*p - p) / 2)` is
an exact division (float division of an even number below 2^53). -/
def equalityConstraints (p : Nat) : Except PyErr (NpMat × List ℚ) := do
  let A1 ← (List.range p).foldlM (fun M i => NpMat.set M i (i * p + i) 1) (NpMat.zeros p (p * p))
  let numSymmetry := (p * p - p) / 2
  let A2 ← (upperPairs p).foldlM (symmetryStep p) (NpMat.zeros numSymmetry (p * p), 0)
  let A ← NpMat.vstack A1 A2.1
  return (A, List.replicate p (0 : ℚ) ++ List.replicate numSymmetry 0)

end Pairwise

/-- A single-publisher reach curve as the surfaces use it: its `max_reach` and
`by_impressions([x]).reach()`. -/
structure SurfaceCurve where
  maxReach : ℚ
  reachAt : ℚ → Except PyErr ℚ

/-- Attributes of `PairwiseUnionReachSurface` after `__init__` and `_fit`,
pairwise_union_reach_surface.py:65-72. -/
structure PairwiseSurface where
  /-- `_reach_curves` -/
  curves : List SurfaceCurve
  /-- `_p` -/
  p : Nat
  /-- `_data`; `_n` is its length -/
  data : List ReachPoint
  /-- `_a` -/
  a : List ℚ

namespace PairwiseSurface

/-- `get_reach_vector`, pairwise_union_reach_surface.py:74-88 (and reach_surface.py:67-81). -/
def getReachVector (curves : List SurfaceCurve) (impressions : List ℚ) : Except PyErr (List ℚ) :=
  (curves.zip impressions).mapM (fun ci => ci.1.reachAt ci.2)

/-- `max(curves[i].max_reach, curves[j].max_reach) * 2` as a divisor,
pairwise_union_reach_surface.py:99-104 and 238-244.  Division by zero raises as for Python
floats (numpy floats would produce nan with a warning). -/
def pairDivisor (curves : List SurfaceCurve) (i j : Nat) : Except PyErr ℚ := do
  let ci ← pyIndex curves i
  let cj ← pyIndex curves j
  if max ci.maxReach cj.maxReach * 2 = 0 then .error .zeroDivision
  else .ok (max ci.maxReach cj.maxReach * 2)

/-- `for i in range(p) for j in range(p)`. -/
def indexPairs (p : Nat) : List (Nat × Nat) :=
  (List.range p).flatMap (fun i => (List.range p).map (fun j => (i, j)))

/-- One summand of the overlap, pairwise_union_reach_surface.py:98-104. -/
def overlapTerm (s : PairwiseSurface) (r : List ℚ) (ij : Nat × Nat) : Except PyErr ℚ := do
  let a ← pyIndex s.a ((ij.1 * s.p + ij.2 : Nat) : Int)
  let ri ← pyIndex r ij.1
  let rj ← pyIndex r ij.2
  let d ← pairDivisor s.curves ij.1 ij.2
  return a * ri * rj / d

/-- `by_impressions`, pairwise_union_reach_surface.py:90-110. -/
def byImpressions (s : PairwiseSurface) (impressions : List ℚ) : Except PyErr ReachPoint := do
  let r ← getReachVector s.curves impressions
  let terms ← (indexPairs s.p).mapM (s.overlapTerm r)
  ReachPoint.new impressions [r.sum - terms.sum]

/-- One vector `z` of `_get_z_and_alpha`, pairwise_union_reach_surface.py:235-248. -/
def zVector (s : PairwiseSurface) (r : List ℚ) : Except PyErr (List ℚ) :=
  (indexPairs s.p).mapM (fun ij => do
    let ri ← pyIndex r ij.1
    let rj ← pyIndex r ij.2
    let d ← pairDivisor s.curves ij.1 ij.2
    return - (ri * rj / d))

/-- `_get_z_and_alpha`, pairwise_union_reach_surface.py:216-252. -/
def getZAndAlpha (s : PairwiseSurface) : Except PyErr (List (List ℚ) × List ℚ) := do
  let rs ← s.data.mapM (fun pt => getReachVector s.curves pt.impressions)
  let z ← rs.mapM s.zVector
  return (z, rs.map List.sum)

/-- `P`, pairwise_union_reach_surface.py:195-205: the sum of the outer products `z zᵀ`. -/
def quadraticTerm (z : List (List ℚ)) (i j : Nat) : ℚ :=
  (z.map (fun zk => zk.getD i 0 * zk.getD j 0)).sum

/-- `q`, pairwise_union_reach_surface.py:206-208; `ys` are the observed reaches. -/
def linearTerm (z : List (List ℚ)) (alpha ys : List ℚ) (i : Nat) : ℚ :=
  - ((z.zip (ys.zip alpha)).map (fun zya => (zya.2.1 - zya.2.2) * zya.1.getD i 0)).sum

/-- The problem handed to `solvers.qp`, `_solve_a_given_z_and_alpha`,
pairwise_union_reach_surface.py:195-212. -/
structure QP where
  P : Nat → Nat → ℚ
  q : Nat → ℚ
  G : NpMat
  h : List ℚ
  A : NpMat
  b : List ℚ

/-- `_fit` up to the solver call, pairwise_union_reach_surface.py:70-72 and 195-212. -/
def quadraticProgram (s : PairwiseSurface) : Except PyErr QP := do
  let (z, alpha) ← s.getZAndAlpha
  let ys ← s.data.mapM (fun pt => pt.reach 1)
  let (G, h) ← Pairwise.inequalityConstraints s.p
  let (A, b) ← Pairwise.equalityConstraints s.p
  return { P := quadraticTerm z, q := linearTerm z alpha ys, G := G, h := h, A := A, b := b }

end PairwiseSurface

end Verif
