import Mathlib.Tactic.Ring
import Mathlib.Tactic.Linarith
import Mathlib.Tactic.Positivity
import Verif.Model.TestPoints
import Verif.Props.DataSet

/-!
# C51: test points
-/

namespace Verif

/-- The point has one coordinate per publisher, each between zero and the maximum spend. -/
def InBox (ds : DataSet) (point : List ℚ) : Prop :=
  List.Forall₂ (fun (p : PublisherData) x => 0 ≤ x ∧ x ≤ p.maxSpend) ds.data point

/-- The point has one coordinate per publisher, each strictly between zero and the maximum spend. -/
def StrictlyInBox (ds : DataSet) (point : List ℚ) : Prop :=
  List.Forall₂ (fun (p : PublisherData) x => 0 < x ∧ x < p.maxSpend) ds.data point

theorem mem_cartesian {α : Type} (axes : List (List α)) (pt : List α) :
    pt ∈ cartesian axes ↔ List.Forall₂ (fun a x => x ∈ a) axes pt := by
  induction axes generalizing pt with
  | nil => simp [cartesian]
  | cons a axes ih =>
    simp only [cartesian, List.mem_flatMap, List.mem_map, List.forall₂_cons_left_iff]
    constructor
    · rintro ⟨x, hx, q, hq, rfl⟩
      exact ⟨x, q, hx, (ih q).1 hq, rfl⟩
    · rintro ⟨x, q, hx, hq, rfl⟩
      exact ⟨x, hx, q, (ih q).2 hq, rfl⟩

theorem length_cartesian {α : Type} (axes : List (List α)) (n : Nat)
    (h : ∀ a ∈ axes, a.length = n) : (cartesian axes).length = n ^ axes.length := by
  induction axes with
  | nil => simp [cartesian]
  | cons a axes ih =>
    have ih' := ih (fun b hb => h b (List.mem_cons_of_mem _ hb))
    simp only [cartesian, List.length_flatMap, List.length_map, ih', List.map_const',
      List.sum_replicate_nat, List.length_cons, pow_succ]
    rw [h a (by simp)]
    ring

theorem nodup_cartesian {α : Type} (axes : List (List α)) (h : ∀ a ∈ axes, a.Nodup) :
    (cartesian axes).Nodup := by
  induction axes with
  | nil => simp [cartesian]
  | cons a axes ih =>
    have ih' := ih (fun b hb => h b (List.mem_cons_of_mem _ hb))
    rw [cartesian, List.nodup_flatMap]
    refine ⟨fun x _ => ih'.map (fun p q hpq => by simpa using hpq), ?_⟩
    refine (h a (by simp)).imp ?_
    intro x y hxy
    simp only [Function.onFun, List.disjoint_left, List.mem_map]
    rintro _ ⟨p, -, rfl⟩ ⟨q, -, hq⟩
    simp only [List.cons.injEq] at hq
    exact hxy hq.1.symm

theorem gridAxis_length (m : ℚ) (g : Int) : (gridAxis m g).length = g.toNat := by
  simp [gridAxis]

theorem gridAxis_nodup (m : ℚ) (g : Int) (hm : 0 < m) (hg : 0 ≤ g) : (gridAxis m g).Nodup := by
  unfold gridAxis
  refine List.Nodup.map ?_ List.nodup_range
  intro i j hij
  have hg' : (0 : ℚ) < (g : ℚ) + 1 := by
    have : (0 : ℚ) ≤ (g : ℚ) := by exact_mod_cast hg
    linarith
  simp only at hij
  rw [div_left_inj' (ne_of_gt hg'), mul_right_inj' (ne_of_gt hm)] at hij
  have : (i : ℚ) = (j : ℚ) := by linarith
  exact_mod_cast this

theorem gridAxis_bounds (m : ℚ) (g : Int) (hm : 0 < m) (x : ℚ) (hx : x ∈ gridAxis m g) :
    0 < x ∧ x < m := by
  unfold gridAxis at hx
  obtain ⟨j, hj, rfl⟩ := List.mem_map.1 hx
  rw [List.mem_range] at hj
  have hjg : (j : ℚ) + 1 ≤ (g : ℚ) := by
    have : (j : Int) + 1 ≤ g := by omega
    exact_mod_cast this
  have hj0 : (0 : ℚ) ≤ (j : ℚ) := Nat.cast_nonneg j
  have hg' : (0 : ℚ) < (g : ℚ) + 1 := by linarith
  constructor
  · positivity
  · rw [div_lt_iff₀ hg']
    nlinarith

/-- C51, grid: `grid_size ^ p` points, pairwise different, strictly inside the spend box, one
coordinate per publisher. -/
theorem C51_grid (ds : DataSet) (g : Nat) (hpos : ∀ p ∈ ds.data, 0 < p.maxSpend) :
    (gridTestPoints ds g).length = g ^ ds.data.length ∧
    (gridTestPoints ds g).Nodup ∧
    ∀ pt ∈ gridTestPoints ds g, StrictlyInBox ds pt := by
  unfold gridTestPoints
  refine ⟨?_, ?_, ?_⟩
  · rw [length_cartesian _ g]
    · simp [maxSpends]
    · intro a ha
      obtain ⟨m, -, rfl⟩ := List.mem_map.1 ha
      rw [gridAxis_length]; simp
  · apply nodup_cartesian
    intro a ha
    obtain ⟨m, hm, rfl⟩ := List.mem_map.1 ha
    obtain ⟨p, hp, rfl⟩ := List.mem_map.1 hm
    exact gridAxis_nodup _ _ (hpos p hp) (by omega)
  · intro pt hpt
    rw [mem_cartesian, maxSpends, List.map_map, List.forall₂_map_left_iff] at hpt
    unfold StrictlyInBox
    rw [List.forall₂_iff_get] at hpt ⊢
    refine ⟨hpt.1, fun i h1 h2 => ?_⟩
    exact gridAxis_bounds _ _ (hpos _ (List.get_mem _ _)) _ (hpt.2 i h1 h2)

/-- C51, grid: the points are exactly the grid: all combinations of `j/(g+1)` of the maximum spends
with `j = 1..g`. -/
theorem C51_grid_complete (ds : DataSet) (g : Nat) (pt : List ℚ) :
    pt ∈ gridTestPoints ds g ↔
      List.Forall₂ (fun (p : PublisherData) x =>
        ∃ j : Nat, 1 ≤ j ∧ j ≤ g ∧ x = p.maxSpend * j / (g + 1)) ds.data pt := by
  unfold gridTestPoints
  rw [mem_cartesian, maxSpends, List.map_map, List.forall₂_map_left_iff]
  have : ∀ (p : PublisherData) (x : ℚ),
      x ∈ (((fun m => gridAxis m (g : Int)) ∘ fun p : PublisherData => p.maxSpend) p) ↔
        ∃ j : Nat, 1 ≤ j ∧ j ≤ g ∧ x = p.maxSpend * j / (g + 1) := by
    intro p x
    simp only [Function.comp, gridAxis, List.mem_map, List.mem_range, Int.toNat_natCast]
    constructor
    · rintro ⟨j, hj, rfl⟩
      exact ⟨j + 1, by omega, by omega, by push_cast; ring⟩
    · rintro ⟨j, h1, h2, rfl⟩
      refine ⟨j - 1, by omega, ?_⟩
      have e : ((j - 1 : Nat) : ℚ) + 1 = (j : ℚ) := by
        have : j - 1 + 1 = j := by omega
        exact_mod_cast this
      rw [e]; push_cast; ring
  constructor
  · exact fun h => h.imp (fun p x hx => (this p x).1 hx)
  · exact fun h => h.imp (fun p x hx => (this p x).2 hx)

theorem mulVec_inBox (ds : DataSet) (v : List ℚ) (hlen : v.length = ds.data.length)
    (hv : ∀ x ∈ v, 0 ≤ x ∧ x ≤ 1) (hnn : ∀ p ∈ ds.data, 0 ≤ p.maxSpend) :
    InBox ds (mulVec (maxSpends ds) v) := by
  unfold InBox
  rw [List.forall₂_iff_get]
  refine ⟨by simp [mulVec, maxSpends, hlen], ?_⟩
  intro i h1 h2
  simp only [mulVec, maxSpends, List.get_eq_getElem, List.getElem_zipWith, List.getElem_map]
  have hi : i < v.length := by omega
  obtain ⟨a, b⟩ := hv _ (List.getElem_mem hi)
  have hm := hnn _ (List.getElem_mem h1)
  exact ⟨mul_nonneg hm a, by nlinarith⟩

/-- C51, Latin hypercube: between 100 and 2000 points, exactly the requested number within those
limits, all in the spend box. -/
theorem C51_latin (ds : DataSet) (npoints npublishers minPer : Int)
    (lhs : Nat → Nat → List (List ℚ)) (perm : Nat → Nat → List Nat)
    (hlhs : ∀ n s, (lhs n s).length = s ∧
      ∀ row ∈ lhs n s, row.length = n ∧ ∀ x ∈ row, 0 ≤ x ∧ x ≤ 1)
    (hperm : ∀ i n, (perm i n).Perm (List.range n))
    (hnn : ∀ p ∈ ds.data, 0 ≤ p.maxSpend) :
    let pts := latinTestPoints ds npoints npublishers minPer lhs perm
    100 ≤ pts.length ∧ pts.length ≤ 2000 ∧
    (100 ≤ max npoints (npublishers * minPer) → max npoints (npublishers * minPer) ≤ 2000 →
      (pts.length : Int) = max npoints (npublishers * minPer)) ∧
    ∀ pt ∈ pts, InBox ds pt := by
  intro pts
  have hlen : pts.length = (latinNumPoints npoints npublishers minPer).toNat := by
    simp only [pts, latinTestPoints, permuteDesign, List.length_map]
    rw [(hperm 0 _).length_eq, List.length_range]
  refine ⟨?_, ?_, ?_, ?_⟩
  · rw [hlen]; unfold latinNumPoints minTestPoints maxTestPoints requestedPoints; omega
  · rw [hlen]; unfold latinNumPoints minTestPoints maxTestPoints requestedPoints; omega
  · intro h1 h2
    rw [hlen]; unfold latinNumPoints minTestPoints maxTestPoints requestedPoints; omega
  · intro pt hpt
    simp only [pts, latinTestPoints, permuteDesign, List.map_map, List.mem_map,
      Function.comp] at hpt
    obtain ⟨r, hr, rfl⟩ := hpt
    have hr' := (hperm 0 _).mem_iff.1 hr
    rw [List.mem_range] at hr'
    obtain ⟨h1, h2⟩ := hlhs ds.publisherCount (latinNumPoints npoints npublishers minPer).toNat
    have hrow : (lhs ds.publisherCount (latinNumPoints npoints npublishers minPer).toNat).getD r []
        ∈ lhs ds.publisherCount (latinNumPoints npoints npublishers minPer).toNat := by
      have hi : r < (lhs ds.publisherCount
          (latinNumPoints npoints npublishers minPer).toNat).length := by omega
      rw [List.getD_eq_getElem?_getD, List.getElem?_eq_getElem hi]
      exact List.getElem_mem hi
    obtain ⟨h3, h4⟩ := h2 _ hrow
    apply mulVec_inBox ds _ _ _ hnn
    · rw [List.length_map, (hperm 1 _).length_eq, List.length_range]; rfl
    · intro x hx
      obtain ⟨c, hc, rfl⟩ := List.mem_map.1 hx
      have hc' := (hperm 1 _).mem_iff.1 hc
      rw [List.mem_range] at hc'
      have hi : c < ((lhs ds.publisherCount
          (latinNumPoints npoints npublishers minPer).toNat).getD r []).length := by omega
      rw [List.getD_eq_getElem?_getD, List.getElem?_eq_getElem hi]
      exact h4 _ (List.getElem_mem hi)

/-- The `j`-th coordinates of the points. -/
def coords (pts : List (List ℚ)) (j : Nat) : List ℚ := pts.map (fun pt => pt.getD j 0)

/-- A design is a Latin hypercube if every column has exactly one entry in each of the `s` slices
`[i/s, (i+1)/s)`. -/
def IsLatin (design : List (List ℚ)) (n s : Nat) : Prop :=
  ∀ j < n, ∀ i < s,
    (coords design j).countP (fun x => ((i : ℚ) / s ≤ x ∧ x < ((i : ℚ) + 1) / s)) = 1

/-- C51, Latin hypercube: if the library's designs are Latin hypercubes then so are the test points:
for every publisher each of the equal slices of its spend range contains exactly one test point.
Permuting rows and columns does not destroy this. -/
theorem C51_latin_stratified (ds : DataSet) (npoints npublishers minPer : Int)
    (lhs : Nat → Nat → List (List ℚ)) (perm : Nat → Nat → List Nat)
    (hlhs : ∀ n s, (lhs n s).length = s)
    (hlat : ∀ n s, IsLatin (lhs n s) n s)
    (hperm : ∀ i n, (perm i n).Perm (List.range n))
    (j : Nat) (hj : j < ds.data.length) (hpos : 0 < (ds.data[j]).maxSpend)
    (i : Nat) :
    let pts := latinTestPoints ds npoints npublishers minPer lhs perm
    i < pts.length →
    (coords pts j).countP (fun x =>
      ((ds.data[j]).maxSpend * i / pts.length ≤ x ∧
        x < (ds.data[j]).maxSpend * (i + 1) / pts.length)) = 1 := by
  intro pts
  set s := (latinNumPoints npoints npublishers minPer).toNat with hs
  set m := (ds.data[j]).maxSpend with hm
  have hlen : pts.length = s := by
    simp only [pts, latinTestPoints, permuteDesign, List.length_map]
    rw [(hperm 0 _).length_eq, List.length_range]
  rw [hlen]
  intro hi
  have hcl : (perm 1 ds.publisherCount).length = ds.data.length := by
    rw [(hperm 1 _).length_eq, List.length_range]; rfl
  have hjc : j < (perm 1 ds.publisherCount).length := by omega
  set c := (perm 1 ds.publisherCount)[j] with hc
  have hcn : c < ds.publisherCount := by
    have := (hperm 1 ds.publisherCount).mem_iff.1 (List.getElem_mem hjc)
    rwa [List.mem_range] at this
  set D := lhs ds.publisherCount s with hD
  -- the coordinates
  have hcoords : coords pts j = (perm 0 s).map (fun r => m * (D.getD r []).getD c 0) := by
    simp only [coords, pts, latinTestPoints, permuteDesign, List.map_map]
    apply List.map_congr_left
    intro r _
    simp only [Function.comp, mulVec]
    rw [List.getD_eq_getElem?_getD, List.getElem?_eq_getElem (by
      simp only [List.length_zipWith, maxSpends, List.length_map]; omega)]
    simp only [List.getElem_zipWith, maxSpends, List.getElem_map, Option.getD_some]
    rfl
  have hDrange : coords D c = (List.range s).map (fun r => (D.getD r []).getD c 0) := by
    unfold coords
    apply List.ext_getElem
    · simp [hD, hlhs]
    · intro r h1 h2
      simp only [List.length_map] at h1
      simp only [List.getElem_map, List.getElem_range, List.getD_eq_getElem?_getD,
        List.getElem?_eq_getElem h1, Option.getD_some]
  rw [hcoords, ((hperm 0 s).map _).countP_eq, List.countP_map]
  have h1 := hlat ds.publisherCount s c hcn i hi
  rw [← hD, hDrange, List.countP_map] at h1
  rw [← h1]
  apply List.countP_congr
  intro r _
  simp only [Function.comp, decide_eq_true_eq]
  rw [mul_div_assoc, mul_div_assoc, mul_le_mul_iff_right₀ hpos, mul_lt_mul_iff_right₀ hpos]

/-- C51, Latin hypercube: the points are the library's design with rows and columns rearranged by the
two permutations drawn, each coordinate scaled by its publisher's maximum spend.  In particular
different publishers use different columns. -/
theorem C51_latin_rearranged (ds : DataSet) (npoints npublishers minPer : Int)
    (lhs : Nat → Nat → List (List ℚ)) (perm : Nat → Nat → List Nat)
    (hperm : ∀ i n, (perm i n).Perm (List.range n)) :
    let pts := latinTestPoints ds npoints npublishers minPer lhs perm
    ∃ rows cols : List Nat,
      rows.Perm (List.range pts.length) ∧ cols.Perm (List.range ds.data.length) ∧
      ∀ i (hi : i < rows.length) (hp : i < pts.length) j (hj : j < cols.length)
        (hd : j < ds.data.length),
        (pts[i])[j]? = some ((ds.data[j]).maxSpend *
          ((lhs ds.data.length pts.length).getD rows[i] []).getD cols[j] 0) := by
  intro pts
  have hlen : pts.length = (latinNumPoints npoints npublishers minPer).toNat := by
    simp only [pts, latinTestPoints, permuteDesign, List.length_map]
    rw [(hperm 0 _).length_eq, List.length_range]
  refine ⟨perm 0 pts.length, perm 1 ds.data.length, hperm 0 _, hperm 1 _, ?_⟩
  intro i hi hp j hj hd
  have hj' : j < (perm 1 ds.publisherCount).length := hj
  have hi' : i < (perm 0 (latinNumPoints npoints npublishers minPer).toNat).length := by
    rw [← hlen]; exact hi
  simp only [hlen]
  simp only [pts, latinTestPoints, permuteDesign, List.getElem_map, mulVec]
  rw [List.getElem?_eq_getElem (by
    simp only [List.length_zipWith, maxSpends, List.length_map]; omega)]
  simp only [List.getElem_zipWith, maxSpends, List.getElem_map]
  rfl

/-- C51 as worded about uniformly random points: always at least 100 of them. -/
def C51_full : Prop :=
  ∀ (ds : DataSet) (npoints npublishers minPer : Int) (random : Nat → List ℚ),
    1 ≤ npublishers → 0 ≤ minPer →
    100 ≤ (uniformTestPoints ds npoints npublishers minPer random).length

/-- C51, uniformly random: as many points as the maximum of the two requested numbers, hence at least
100 if either request is left at its default; all in the spend box; the `i`-th point is the `i`-th
draw scaled by the maximum spends.  Missing: the minimum of 100 when
both requests are smaller. -/
theorem C51_uniform_partial (ds : DataSet) (npoints npublishers minPer : Int)
    (random : Nat → List ℚ)
    (hrnd : ∀ i, (random i).length = ds.data.length ∧ ∀ x ∈ random i, 0 ≤ x ∧ x ≤ 1)
    (hnn : ∀ p ∈ ds.data, 0 ≤ p.maxSpend) :
    let pts := uniformTestPoints ds npoints npublishers minPer random
    (pts.length : Int) = max (max npoints (npublishers * minPer)) 0 ∧
    (npoints = minTestPoints → 100 ≤ pts.length) ∧
    (1 ≤ npublishers → minPer = minTestPointsPerPublisher → 100 ≤ pts.length) ∧
    (∀ pt ∈ pts, InBox ds pt) ∧
    ∀ i < pts.length, pts[i]? =
      some (List.zipWith (fun (p : PublisherData) x => p.maxSpend * x) ds.data (random i)) := by
  intro pts
  have hlen : (pts.length : Int) = max (max npoints (npublishers * minPer)) 0 := by
    simp only [pts, uniformTestPoints, List.length_map, List.length_range, requestedPoints]
    omega
  refine ⟨hlen, ?_, ?_, ?_, ?_⟩
  · intro h
    unfold minTestPoints at h
    have : (100 : Int) ≤ pts.length := by rw [hlen, h]; omega
    exact_mod_cast this
  · intro h1 h2
    unfold minTestPointsPerPublisher at h2
    have : (100 : Int) ≤ pts.length := by
      rw [hlen, h2]
      have : (100 : Int) ≤ npublishers * 100 := by omega
      omega
    exact_mod_cast this
  · intro pt hpt
    simp only [pts, uniformTestPoints, List.mem_map] at hpt
    obtain ⟨i, -, rfl⟩ := hpt
    exact mulVec_inBox ds _ (hrnd i).1 (hrnd i).2 hnn
  · intro i hi
    simp only [pts, uniformTestPoints, List.length_map, List.length_range] at hi
    simp only [pts, uniformTestPoints, List.getElem?_map, List.getElem?_range hi, Option.map_some,
      mulVec, maxSpends, List.zipWith_map_left]

/-- C51 as worded is false: asking for ten points in total and one per publisher gives ten, because
the number computed at uniformly_random_test_point_generator.py:72 is not used. -/
theorem C51_full_is_false : ¬ C51_full := by
  intro h
  have := h exDataSet 10 1 1 (fun _ => [1 / 2, 1 / 2]) (by decide) (by decide)
  exact absurd this (by decide +kernel)

/-! ## Examples -/

example : ∀ p ∈ exDataSet.data, 0 < p.maxSpend := by decide +kernel

example : (gridTestPoints exDataSet 2).length = 2 ^ exDataSet.data.length := by decide +kernel

/-- The diagonal design of one sample per slice is a Latin hypercube of any size. -/
example : IsLatin [[0, 1 / 3], [1 / 3, 2 / 3], [2 / 3, 0]] 2 3 := by
  unfold IsLatin coords; decide +kernel

/-- The diagonal design: sample `i` has all coordinates `i / s`. -/
def exLhs (n s : Nat) : List (List ℚ) :=
  (List.range s).map (fun i : Nat => List.replicate n ((i : ℚ) / s))

/-- The hypotheses of `C51_latin` and `C51_latin_stratified` on the library hold for the diagonal
design. -/
theorem exLhs_ok (n s : Nat) : (exLhs n s).length = s ∧
    (∀ row ∈ exLhs n s, row.length = n ∧ ∀ x ∈ row, 0 ≤ x ∧ x ≤ 1) ∧ IsLatin (exLhs n s) n s := by
  refine ⟨by simp [exLhs], ?_, ?_⟩
  · intro row hrow
    obtain ⟨i, hi, rfl⟩ := List.mem_map.1 hrow
    rw [List.mem_range] at hi
    refine ⟨by simp, fun x hx => ?_⟩
    rw [List.eq_of_mem_replicate hx]
    have hs : (0 : ℚ) < s := by exact_mod_cast (by omega : 0 < s)
    refine ⟨by positivity, ?_⟩
    rw [div_le_one hs]
    exact_mod_cast hi.le
  · intro j hj i hi
    have hs : (0 : ℚ) < s := by exact_mod_cast (by omega : 0 < s)
    have h1 : (List.range s).countP (fun r => decide (r = i)) = 1 := by
      have : (List.range s).count i = 1 :=
        List.count_eq_one_of_mem List.nodup_range (List.mem_range.2 hi)
      rw [← this, List.count]
      apply List.countP_congr
      intro r _
      simp
    rw [← h1]
    unfold coords exLhs
    rw [List.map_map, List.countP_map]
    apply List.countP_congr
    intro r _
    have e : (List.replicate n ((r : ℚ) / s)).getD j 0 = (r : ℚ) / s := by
      rw [List.getD_eq_getElem?_getD, List.getElem?_eq_getElem (by simpa using hj)]
      simp
    simp only [Function.comp, decide_eq_true_eq, e]
    rw [div_le_div_iff_of_pos_right hs, div_lt_div_iff_of_pos_right hs]
    constructor
    · rintro ⟨a, b⟩
      have a' : i ≤ r := by exact_mod_cast a
      have b' : r < i + 1 := by exact_mod_cast b
      omega
    · rintro rfl
      exact ⟨le_refl _, by linarith⟩

/-- Every publisher's spend range has one test point in each of the 150 slices. -/
example (j : Nat) (hj : j < exDataSet.data.length) (i : Nat)
    (hi : i < (latinTestPoints exDataSet 150 1 100 exLhs (fun _ n => List.range n)).length) :
    (coords (latinTestPoints exDataSet 150 1 100 exLhs (fun _ n => List.range n)) j).countP
      (fun x => ((exDataSet.data[j]).maxSpend * i /
          (latinTestPoints exDataSet 150 1 100 exLhs (fun _ n => List.range n)).length ≤ x ∧
        x < (exDataSet.data[j]).maxSpend * (i + 1) /
          (latinTestPoints exDataSet 150 1 100 exLhs (fun _ n => List.range n)).length)) = 1 := by
  have hpos : ∀ p ∈ exDataSet.data, 0 < p.maxSpend := by decide +kernel
  exact C51_latin_stratified exDataSet 150 1 100 exLhs _ (fun n s => (exLhs_ok n s).1)
    (fun n s => (exLhs_ok n s).2.2) (fun _ _ => List.Perm.refl _) j hj
    (hpos _ (List.getElem_mem hj)) i hi

/-- Constant draws meet the hypotheses of `C51_uniform_partial`. -/
example : (uniformTestPoints exDataSet 120 1 100
    (fun _ => List.replicate exDataSet.data.length (1 / 2))).length = 120 := by
  have h := C51_uniform_partial exDataSet 120 1 100
    (fun _ => List.replicate exDataSet.data.length (1 / 2))
    (fun _ => ⟨by simp, fun x hx => by rw [List.eq_of_mem_replicate hx]; norm_num⟩)
    (by decide +kernel)
  have h1 := h.1
  omega

end Verif
