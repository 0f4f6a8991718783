import Verif.Props.DataSet
import Verif.Props.ReachCurve
import Verif.Props.Pairwise
import Verif.Props.Planner
import Verif.Props.Dirac
import Verif.Props.Halo

/-!
# Clauses of several properties that earlier modules leave out

* C09: bounds for every frequency, and for spends.
* C11: order of publishers for spends; a publisher left out at any place.
* C26: curves that start above the target.
* C28: the strict bound fails for a model fitted to zero reach.
* C29, C78, C84, C55: meaning of the matrix operations, and default arguments.
-/

namespace Verif

open Verif.Spec

/-! ## C09 -/

/-- Bounds of a union, for every frequency: at least as many people are reached `k` times by all
publishers as by any of them, and at most as many as are reached by the publishers, counted once per
publisher. -/
theorem kPlusReach_union_bounds {α : Type} (l : List α) (f : α → Int → Nat) (U : Set Int)
    (hU : U.Finite) (h : ∀ a ∈ l, ∀ u, 1 ≤ f a u → u ∈ U) (k : Nat) (hk : 1 ≤ k) :
    (∀ a ∈ l, kPlusReach (f a) k ≤ kPlusReach (fun u => (l.map (fun a => f a u)).sum) k) ∧
    kPlusReach (fun u => (l.map (fun a => f a u)).sum) k ≤ (l.map (fun a => kPlusReach (f a) 1)).sum := by
  have hmem : ∀ u, 1 ≤ (l.map (fun a => f a u)).sum → u ∈ U := by
    intro u hu
    by_contra hc
    have : (l.map (fun a => f a u)).sum = 0 := by
      rw [List.sum_eq_zero_iff]
      intro x hx
      obtain ⟨a, ha, rfl⟩ := List.mem_map.1 hx
      by_contra h0
      exact hc (h a ha u (Nat.one_le_iff_ne_zero.2 h0))
    omega
  refine ⟨fun a ha => kPlusReach_mono_total _ _ U hU hmem (fun u => ?_) k hk, ?_⟩
  · exact List.single_le_sum (l := l.map (fun a => f a u)) (fun _ _ => Nat.zero_le _) _
      (List.mem_map.2 ⟨a, ha, rfl⟩)
  · exact (kPlusReach_anti_k _ U hU hmem 1 k le_rfl hk).trans (kPlusReach_one_le_sum l f U hU h)

/-- C09 (e): for every frequency `k`, the k+ reach of the data set is at least the k+ reach of each
publisher alone, and at most the sum of the publishers' own reaches. -/
theorem C09_kplus_bounds (ds : DataSet) (logs : List Log)
    (hb : List.Forall₂ Built logs ds.data) (v : List Nat) (hv : v.length = logs.length)
    (F : Nat) (hF : 1 ≤ F) :
    ∃ r, ds.reachByImpressions (v.map (fun n : Nat => (n : Int))) F = .ok r ∧
      ∀ k : Nat, 1 ≤ k → k ≤ F → ∃ x, r.reach k = .ok x ∧
        (∀ lv ∈ logs.zip v, (kPlusReach (exposuresAtImpressions lv.1 lv.2) k : ℚ) ≤ x) ∧
        x ≤ (((logs.zip v).map
          (fun lv => kPlusReach (exposuresAtImpressions lv.1 lv.2) 1)).sum : Nat) := by
  obtain ⟨r, h1, _, _, h3, _⟩ := C07_reach_by_impressions ds logs hb v hv F hF
  refine ⟨r, h1, fun k hk hkF => ⟨_, h3 k hk hkF, ?_⟩⟩
  obtain ⟨b1, b2⟩ := kPlusReach_union_bounds (logs.zip v)
    (fun lv u => exposuresAtImpressions lv.1 lv.2 u) (allUsers logs) (allUsers_finite logs)
    (fun lv hlv u hu => ⟨lv.1, (List.of_mem_zip hlv).1, exposuresAtImpressions_mem _ _ _ hu⟩) k hk
  exact ⟨fun lv hlv => by exact_mod_cast b1 lv hlv, by exact_mod_cast b2⟩

/-- C09 (f): for spends the same bounds hold; and the k+ reaches do not increase with `k` and are at
most `maximum_reach`. -/
theorem C09_spend_bounds (pubs : List PublisherData) (nm : String) (us : Option Int)
    (ds : DataSet) (hds : DataSet.new pubs nm us = .ok ds) (logs : List Log)
    (hb : List.Forall₂ Built logs ds.data) (s : List ℚ) (hs : s.length = logs.length)
    (F : Nat) (hF : 1 ≤ F) :
    ∃ r, ds.reachBySpend s F = .ok r ∧
      ∀ k : Nat, 1 ≤ k → k ≤ F → ∃ x, r.reach k = .ok x ∧ 0 ≤ x ∧ x ≤ ds.maximumReach ∧
        (∀ ls ∈ logs.zip s, (kPlusReach (exposuresAtSpend ls.1 ls.2) k : ℚ) ≤ x) ∧
        x ≤ (((logs.zip s).map
          (fun ls => kPlusReach (exposuresAtSpend ls.1 ls.2) 1)).sum : Nat) ∧
        ∀ k' : Nat, k ≤ k' → k' ≤ F → ∃ x', r.reach k' = .ok x' ∧ x' ≤ x := by
  obtain ⟨hmax, -⟩ := C09_bounded_and_decreasing pubs nm us ds hds logs hb
    (List.replicate logs.length 0) (by simp) F hF
  obtain ⟨r, h1, _, _, _, h3, _⟩ := C08_reach_by_spend ds logs hb s hs F hF
  refine ⟨r, h1, fun k hk hkF => ⟨_, h3 k hk hkF, by positivity, ?_, ?_⟩⟩
  · have := kPlusReach_le_card _ _ (allUsers_finite logs) (totalAtSpend_mem logs s) k hk
    rw [hmax]; exact_mod_cast this
  obtain ⟨b1, b2⟩ := kPlusReach_union_bounds (logs.zip s)
    (fun ls u => exposuresAtSpend ls.1 ls.2 u) (allUsers logs) (allUsers_finite logs)
    (fun ls hls u hu => ⟨ls.1, (List.of_mem_zip hls).1, exposuresAtSpend_mem _ _ _ hu⟩) k hk
  refine ⟨fun ls hls => by exact_mod_cast b1 ls hls, by exact_mod_cast b2, fun k' hkk hk' =>
    ⟨_, h3 k' (by omega) hk', ?_⟩⟩
  have := kPlusReach_anti_k _ _ (allUsers_finite logs) (totalAtSpend_mem logs s) k k' hk hkk
  exact_mod_cast this

/-- The own k+ reaches need not add up to as much as the k+ reach: user 7 has one impression of each
publisher, and so is reached twice although neither publisher reaches anybody twice. -/
example : (exDataSet.reachByImpressions [1, 1] 2).toOption.map (·.kplusReaches) = some [1, 1] ∧
    (exDataSet.reachByImpressions [1, 0] 2).toOption.map (·.kplusReaches) = some [1, 0] ∧
    (exDataSet.reachByImpressions [0, 1] 2).toOption.map (·.kplusReaches) = some [1, 0] ∧
    (exDataSet.reachBySpend [2, 1] 2).toOption.map (·.kplusReaches) = some [3, 1] ∧
    DataSet.new exPubs "ex" = .ok exDataSet := by
  refine ⟨?_, ?_, ?_, ?_, ?_⟩ <;> decide +kernel

/-! ## C11 -/

/-- C11 (c): listing the publishers in another order, together with their spends, changes no k+
reach. -/
theorem C11_publisher_order_spend (ds ds' : DataSet) (logs logs' : List Log)
    (hb : List.Forall₂ Built logs ds.data) (hb' : List.Forall₂ Built logs' ds'.data)
    (s s' : List ℚ) (hs : s.length = logs.length) (hs' : s'.length = logs'.length)
    (hperm : (logs.zip s).Perm (logs'.zip s')) (F : Nat) (hF : 1 ≤ F) :
    ∃ r r', ds.reachBySpend s F = .ok r ∧ ds'.reachBySpend s' F = .ok r' ∧
      ∀ k : Nat, 1 ≤ k → k ≤ F → r.reach k = r'.reach k ∧ ∃ x, r.reach k = .ok x := by
  obtain ⟨r, h1, _, _, _, h3, _⟩ := C08_reach_by_spend ds logs hb s hs F hF
  obtain ⟨r', h1', _, _, _, h3', _⟩ := C08_reach_by_spend ds' logs' hb' s' hs' F hF
  refine ⟨r, r', h1, h1', fun k hk hkF => ?_⟩
  rw [h3 k hk hkF, h3' k hk hkF]
  refine ⟨?_, _, rfl⟩
  congr 3
  funext u
  exact (hperm.map _).sum_eq

/-- C11 (d): a publisher that delivers no impressions may as well be absent, at whatever place in the
list it is. -/
theorem C11_zero_anywhere (ds ds' : DataSet) (logs₁ logs₂ : List Log) (log : Log)
    (hb : List.Forall₂ Built (logs₁ ++ logs₂) ds.data)
    (hb' : List.Forall₂ Built (logs₁ ++ log :: logs₂) ds'.data)
    (v₁ v₂ : List Nat) (h₁ : v₁.length = logs₁.length) (h₂ : v₂.length = logs₂.length)
    (F : Nat) (hF : 1 ≤ F) :
    ∃ r r', ds.reachByImpressions ((v₁ ++ v₂).map (fun n : Nat => (n : Int))) F = .ok r ∧
      ds'.reachByImpressions ((v₁ ++ 0 :: v₂).map (fun n : Nat => (n : Int))) F = .ok r' ∧
      ∀ k : Nat, 1 ≤ k → k ≤ F → r.reach k = r'.reach k ∧ ∃ x, r.reach k = .ok x := by
  obtain ⟨r, h1, _, _, h3, _⟩ := C07_reach_by_impressions ds _ hb (v₁ ++ v₂)
    (by simp [h₁, h₂]) F hF
  obtain ⟨r', h1', _, _, h3', _⟩ := C07_reach_by_impressions ds' _ hb' (v₁ ++ 0 :: v₂)
    (by simp [h₁, h₂]) F hF
  refine ⟨r, r', h1, h1', fun k hk hkF => ?_⟩
  rw [h3 k hk hkF, h3' k hk hkF]
  refine ⟨?_, _, rfl⟩
  congr 3
  funext u
  unfold totalAtImpressions
  rw [List.zip_append h₁.symm, List.zip_append h₁.symm]
  simp [exposuresAtImpressions_zero]

/-- C11 (e): the same for spends, for a publisher none of whose impressions is affordable. -/
theorem C11_unaffordable (ds ds' : DataSet) (logs₁ logs₂ : List Log) (log : Log)
    (hb : List.Forall₂ Built (logs₁ ++ logs₂) ds.data)
    (hb' : List.Forall₂ Built (logs₁ ++ log :: logs₂) ds'.data)
    (s₁ s₂ : List ℚ) (s : ℚ) (hno : ∀ e ∈ log, s < e.2)
    (h₁ : s₁.length = logs₁.length) (h₂ : s₂.length = logs₂.length)
    (F : Nat) (hF : 1 ≤ F) :
    ∃ r r', ds.reachBySpend (s₁ ++ s₂) F = .ok r ∧ ds'.reachBySpend (s₁ ++ s :: s₂) F = .ok r' ∧
      ∀ k : Nat, 1 ≤ k → k ≤ F → r.reach k = r'.reach k ∧ ∃ x, r.reach k = .ok x := by
  obtain ⟨r, h1, _, _, _, h3, _⟩ := C08_reach_by_spend ds _ hb (s₁ ++ s₂) (by simp [h₁, h₂]) F hF
  obtain ⟨r', h1', _, _, _, h3', _⟩ := C08_reach_by_spend ds' _ hb' (s₁ ++ s :: s₂)
    (by simp [h₁, h₂]) F hF
  refine ⟨r, r', h1, h1', fun k hk hkF => ?_⟩
  rw [h3 k hk hkF, h3' k hk hkF]
  refine ⟨?_, _, rfl⟩
  congr 3
  funext u
  have h0 : exposuresAtSpend log s u = 0 := by
    unfold exposuresAtSpend
    rw [List.countP_eq_zero]
    intro e he
    simp only [decide_eq_true_eq, not_and, not_le]
    intro _
    exact hno e he
  unfold totalAtSpend
  rw [List.zip_append h₁.symm, List.zip_append h₁.symm]
  simp [h0]

/-- A publisher between the two of the example, from which nothing is bought. -/
example : (exDataSet.reachByImpressions [2, 1] 2).toOption.map (·.kplusReaches) =
    ((DataSet.reachByImpressions { exDataSet with data := exPubs.take 1 ++ exPubs } [2, 0, 1] 2).toOption.map (·.kplusReaches)) ∧
    (exDataSet.reachBySpend [2, 1] 2).toOption.map (·.kplusReaches) =
    ((DataSet.reachBySpend { exDataSet with data := exPubs.take 1 ++ exPubs } [2, 1 / 2, 1] 2).toOption.map (·.kplusReaches)) := by
  constructor <;> decide +kernel

/-! ## C26 -/

/-- C26 (d): for a non-decreasing curve that is above the target from the start, no input is small
enough, and the search returns zero. -/
theorem C26_above (f : Nat → ℚ) (hf : Monotone f) (M q : ℚ) (hq : 0 < q ∧ q < 1)
    (h0 : M * q < f 0) : ReachCurve.byQuantile M (fun n => .ok (f n)) q = .ok 0 := by
  unfold ReachCurve.byQuantile
  rw [if_neg (by simpa using hq)]
  have hd : ReachCurve.doublingLoop (fun n => .ok (f n)) (M * q) 0 1 0 = .ok (0, 1) := by
    unfold ReachCurve.doublingLoop
    rw [if_neg (not_le.2 (h0.trans_le (hf (Nat.zero_le 1))))]
  rw [hd]
  simp only [bind, Except.bind]
  unfold ReachCurve.bisectLoop
  rw [dif_neg (by omega)]

/-- Users reached without any impressions. -/
example : ReachCurve.byQuantile 10 (fun n => .ok ((n : ℚ) + 7)) (1 / 2) = .ok 0 ∧
    Monotone (fun n : Nat => (n : ℚ) + 7) ∧ (10 : ℚ) * (1 / 2) < ((0 : Nat) : ℚ) + 7 := by
  refine ⟨by decide +kernel, fun a b h => ?_, by norm_num⟩
  have : (a : ℚ) ≤ b := by exact_mod_cast h
  simpa using this

/-! ## C28 -/

/-- C28 in full: every query to every fitted model succeeds, and all k+ reaches are non-negative,
strictly below the maximum reach and at most the impressions. -/
def C28_full : Prop :=
  ∀ (data : List ReachPoint) (m : GoergModel), GoergModel.new data = .ok m →
    ∀ (x : ℚ), 0 ≤ x → ∀ (F : Nat), ∃ pt, m.byImpressions [x] F = .ok pt ∧
      ∀ k : Nat, 1 ≤ k → k ≤ F → ∃ y, pt.reach k = .ok y ∧ 0 ≤ y ∧ y < m.maxReach ∧ y ≤ x

/-- The full statement is false: a point with impressions but without reach is accepted for
training; then the maximum reach is zero and the prediction is not below it (and without impressions
there is an exception instead of a prediction). -/
theorem C28_full_is_false : ¬ C28_full := by
  intro h
  obtain ⟨pt, h1, -⟩ := h [{ exGoergPoint with kplusReaches := [0] }]
    { impressions := 100, reach := 0, rho := 0, beta := 0, cpi := some (1 / 20) } (by decide +kernel)
    0 le_rfl 1
  have h2 : GoergModel.byImpressions
      { impressions := 100, reach := 0, rho := 0, beta := 0, cpi := some (1 / 20) } [0] (1 : Nat)
      = .error .zeroDivision := by decide +kernel
  rw [h2] at h1
  cases h1

/-! ## Default arguments and the matrices of the solver -/

/-- C29: the Kronecker product of the model is the one of mathematics: in block `(i, j)` at `(k, l)`
stands the product of the entries. -/
theorem C29_kron (A B : NpMat) (i j k l : Nat) (hk : k < B.rows) (hl : l < B.cols) :
    (A.kron B).rows = A.rows * B.rows ∧ (A.kron B).cols = A.cols * B.cols ∧
    (A.kron B).entry (i * B.rows + k) (j * B.cols + l) = A.entry i j * B.entry k l := by
  refine ⟨rfl, rfl, ?_⟩
  unfold NpMat.kron
  simp only
  rw [Nat.add_comm (i * B.rows), Nat.add_comm (j * B.cols),
    Nat.add_mul_div_right _ _ (by omega), Nat.add_mul_div_right _ _ (by omega),
    Nat.div_eq_of_lt hk, Nat.div_eq_of_lt hl, Nat.add_mul_mod_self_right,
    Nat.add_mul_mod_self_right, Nat.mod_eq_of_lt hk, Nat.mod_eq_of_lt hl]
  simp

/-- C29: matrices of different widths cannot be stacked (`ValueError`), entries outside of a matrix
cannot be set (`IndexError`). -/
theorem C29_refused (A B : NpMat) (r c : Nat) (x : ℚ) :
    (A.cols ≠ B.cols → A.vstack B = .error .valueError) ∧
    (A.rows ≤ r ∨ A.cols ≤ c → A.set r c x = .error .indexError) := by
  constructor
  · intro h
    unfold NpMat.vstack
    rw [if_neg h]
  · intro h
    unfold NpMat.set
    rw [if_neg (by omega)]

example : ((⟨2, 2, fun r c => (r + 2 * c : ℚ)⟩ : NpMat).kron ⟨2, 3, fun r c => (r * c : ℚ)⟩).entry 3 5
    = 3 * 2 := by
  norm_num [NpMat.kron]

/-- C55: without a frequency the true reach of a publisher is asked for frequency one. -/
theorem C55_default (p : Publisher) (spend : ℚ) :
    p.trueReachBySpend spend = p.trueReachBySpend spend 1 := rfl

/-- C78: without a share of the uniform grid, the grid is the purely weighted one. -/
theorem C78_default (n : Nat) (pmf : List ℚ) :
    Dirac.inBoundGrid n pmf = Dirac.purelyWeightedGrid n pmf := rfl

/-- C84: without a frequency the surfaces are asked for frequency one; those of the shipped
surfaces whose answer does not depend on the frequency give the same answer for all. -/
theorem C84_default (curves : List PlannerCurve)
    (by_ : List ℚ → Int → Except PyErr ReachPoint) (s : PairwiseSurface) (m : MixtureSurface)
    (spend : List ℚ) (F : Int) :
    surfaceBySpend curves by_ spend = surfaceBySpend curves by_ spend 1 ∧
    PairwiseSurface.bySpend curves s spend F = PairwiseSurface.bySpend curves s spend ∧
    MixtureSurface.bySpend curves m spend F = MixtureSurface.bySpend curves m spend :=
  ⟨rfl, rfl, rfl⟩

end Verif
