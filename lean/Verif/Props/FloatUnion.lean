import Verif.Props.FloatGoerg
import Verif.Props.FloatSurface
import Verif.Props.FloatSpend
import Verif.Props.Planner

/-!
# C30: the pairwise union surface over Goerg curves, everything on floats
-/

namespace Verif

open Finset Verif.Spec

theorem reachVector_zip {α : Type} (c : α → SurfaceCurve) (f : α → ℚ → ℚ) :
    ∀ (ms : List α) (v : List ℚ), (∀ q ∈ ms.zip v, (c q.1).reachAt q.2 = .ok (f q.1 q.2)) →
    PairwiseSurface.getReachVector (ms.map c) v = .ok (List.zipWith f ms v)
  | [], v, _ => by cases v <;> rfl
  | m :: ms, [], _ => rfl
  | m :: ms, x :: v, h => by
    have h1 := h (m, x) (by simp)
    have h2 := reachVector_zip c f ms v (fun q hq => h q (by simp [hq]))
    unfold PairwiseSurface.getReachVector at h2 ⊢
    simp only [List.map_cons, List.zip_cons_cons, List.mapM_cons, h1, h2]
    rfl

theorem zipWith_at {α : Type} (f : α → ℚ → ℚ) (ms : List α) (v : List ℚ) (i : Nat)
    (hi : i < ms.length) (hv : i < v.length) :
    (List.zipWith f ms v).getD i 0 = f ms[i] v[i] := by
  rw [List.getD_eq_getElem?_getD, List.getElem?_eq_getElem (by simp; omega), Option.getD_some,
    List.getElem_zipWith]

/-- Equal, or equal up to roundings. -/
def CloseFl (u : ℚ) (n : ℕ) (a b : ℚ) : Prop := (a = 0 ∧ b = 0) ∨ NearFl u n a b

theorem CloseFl.nonneg {u : ℚ} {n : ℕ} {a b : ℚ} (h : CloseFl u n a b) : 0 ≤ a ∧ 0 ≤ b := by
  rcases h with ⟨rfl, rfl⟩ | h
  · exact ⟨le_rfl, le_rfl⟩
  · exact ⟨h.apos.le, h.bpos.le⟩

theorem CloseFl.abs_le {u : ℚ} {n : ℕ} {a b : ℚ} (h0 : 0 ≤ u) (h1 : u < 1) (hn : (n : ℚ) * u ≤ 1 / 2)
    (h : CloseFl u n a b) : |a - b| ≤ 2 * (n * u) * b := by
  rcases h with ⟨rfl, rfl⟩ | h
  · simp
  · exact h.abs_le h0 h1 hn

theorem NearFl.max {u : ℚ} {n : ℕ} {a b c d : ℚ} (h1 : u < 1) (h : NearFl u n a b)
    (h' : NearFl u n c d) : NearFl u n (max a c) (max b d) := by
  have hn : 0 ≤ (1 - u) ^ n := (pow_pos (by linarith) n).le
  refine ⟨lt_max_of_lt_left h.apos, lt_max_of_lt_left h.bpos, ?_, ?_⟩
  · rw [max_mul_of_nonneg _ _ hn]
    exact max_le_max h.lo h'.lo
  · rw [max_mul_of_nonneg _ _ hn]
    exact max_le_max h.hi h'.hi

/-- The union formula with rounded reaches. -/
theorem unionReach_close {u : ℚ} (h0 : 0 ≤ u) (c : ℕ) (hu : (2 * c + 3) * u ≤ 1 / 2) (p : Nat)
    (a : Nat → Nat → ℚ) (ha : PlausibleOverlap p a) (m m' r r' : Nat → ℚ)
    (hm : ∀ i < p, NearFl u 3 (m' i) (m i)) (hr : ∀ i < p, CloseFl u c (r' i) (r i))
    (hle : ∀ i < p, r i ≤ m i) :
    |unionReach p a m' r' - unionReach p a m r| ≤ (4 * c + 3) * u * ∑ i ∈ range p, r i := by
  have hc0 : (0 : ℚ) ≤ c := by positivity
  have hcu : 0 ≤ c * u := by positivity
  have h1 : u < 1 := by linarith
  have hterm : ∀ i ∈ range p, ∀ j ∈ range p,
      |a i j * r' i * r' j / max (m' i) (m' j) - a i j * r i * r j / max (m i) (m j)| ≤
        (4 * c + 6) * u * (a i j * r i) := by
    intro i hi j hj
    rw [mem_range] at hi hj
    have hmax := NearFl.max h1 (hm i hi) (hm j hj)
    have hri := hr i hi
    have hrj := hr j hj
    have ri0 := hri.nonneg
    have rj0 := hrj.nonneg
    have haij := ha.nonneg i hi j hj
    have hc : CloseFl u (0 + c + c + 3) (a i j * r' i * r' j / max (m' i) (m' j))
        (a i j * r i * r j / max (m i) (m j)) := by
      rcases haij.eq_or_lt with h | hapos
      · left; rw [← h]; simp
      rcases hri with ⟨e1, e2⟩ | hri
      · left; rw [e1, e2]; simp
      rcases hrj with ⟨e1, e2⟩ | hrj
      · left; rw [e1, e2]; simp
      right
      exact (((NearFl.refl (u := u) hapos).mul h1 hri).mul h1 hrj).div h1 hmax
    have hq : a i j * r i * r j / max (m i) (m j) ≤ a i j * r i := by
      rw [div_le_iff₀ hmax.bpos]
      exact mul_le_mul_of_nonneg_left ((hle j hj).trans (le_max_right _ _))
        (mul_nonneg haij ri0.2)
    refine (hc.abs_le h0 h1 (by push_cast; linarith)).trans ?_
    push_cast
    have := mul_le_mul_of_nonneg_left hq (show 0 ≤ 2 * ((2 * c + 3) * u) by positivity)
    linarith
  have hsum : |∑ i ∈ range p, r' i - ∑ i ∈ range p, r i| ≤ 2 * c * u * ∑ i ∈ range p, r i := by
    rw [← sum_sub_distrib, mul_sum]
    refine (abs_sum_le_sum_abs _ _).trans (sum_le_sum fun i hi => ?_)
    refine ((hr i (mem_range.1 hi)).abs_le h0 h1 (by linarith)).trans (le_of_eq ?_)
    ring
  have hdouble : |∑ i ∈ range p, ∑ j ∈ range p, a i j * r' i * r' j / max (m' i) (m' j) -
      ∑ i ∈ range p, ∑ j ∈ range p, a i j * r i * r j / max (m i) (m j)| ≤
        (4 * c + 6) * u * ∑ i ∈ range p, r i := by
    rw [← sum_sub_distrib, mul_sum]
    refine (abs_sum_le_sum_abs _ _).trans (sum_le_sum fun i hi => ?_)
    rw [← sum_sub_distrib]
    refine (abs_sum_le_sum_abs _ _).trans ((sum_le_sum fun j hj => hterm i hi j hj).trans ?_)
    rw [← mul_sum, ← sum_mul]
    have hrow := ha.row i (mem_range.1 hi)
    have := mul_le_mul_of_nonneg_right hrow (hr i (mem_range.1 hi)).nonneg.2
    have := mul_le_mul_of_nonneg_left this (show 0 ≤ (4 * c + 6) * u by positivity)
    linarith
  unfold unionReach
  rw [_root_.abs_le] at hsum hdouble ⊢
  constructor <;> linarith [hsum.1, hsum.2, hdouble.1, hdouble.2]

/-- A fitted model whose numbers are neither tiny nor huge. -/
structure GoergFitted (m : GoergModel) : Prop where
  fitted : ∃ d, GoergModel.new [d] = .ok m
  range : GoergRange m

/-- Impressions that are a float, zero or neither tiny nor huge. -/
def PlannedImpressions (x : ℚ) : Prop :=
  round64 x = x ∧ (x = 0 ∨ (2 ^ (-200 : ℤ) ≤ x ∧ x ≤ 2 ^ (200 : ℤ)))

/-- Impressions `x'` that are a float and `n` roundings from the exact ones. -/
def PlannedClose (n : Nat) (x x' : ℚ) : Prop :=
  round64 x' = x' ∧ ((x = 0 ∧ x' = 0) ∨
    (NearFl (2 ^ (-53 : ℤ)) n x' x ∧ 2 ^ (-200 : ℤ) ≤ x ∧ x ≤ 2 ^ (200 : ℤ)))

theorem PlannedClose.nonneg {n : Nat} {x x' : ℚ} (h : PlannedClose n x x') : 0 ≤ x ∧ 0 ≤ x' := by
  rcases h.2 with ⟨rfl, rfl⟩ | ⟨h, -⟩
  · exact ⟨le_rfl, le_rfl⟩
  · exact ⟨h.bpos.le, h.apos.le⟩

theorem PlannedImpressions.close {x : ℚ} (h : PlannedImpressions x) : PlannedClose 0 x x := by
  rcases h.2 with h0 | h1
  · exact ⟨h.1, Or.inl ⟨h0, h0⟩⟩
  · exact ⟨h.1, Or.inr ⟨NearFl.refl ((two_zpow_pos _).trans_le h1.1), h1⟩⟩

theorem rhoFl_one_le (i r : ℚ) (hr : 1 ≤ r) (hir : r < i) (hpos : 0 < round64 (i - r)) :
    1 ≤ GoergModel.rhoFl round64 i r := by
  have h1 : round64 1 = 1 := by decide +kernel
  have hle : round64 (i - r) ≤ round64 (i * r) :=
    round64_mono _ _ (by linarith) (by nlinarith)
  unfold GoergModel.rhoFl
  conv_lhs => rw [← h1]
  exact round64_mono _ _ (by norm_num) ((one_le_div hpos).2 hle)

theorem goerg_share_ge (t B x i r : ℚ) (ht0 : 0 < t) (hB : 1 ≤ B) (ht : t * (64 * B ^ 4) ≤ 1)
    (hx : B⁻¹ ≤ x) (hxB : x ≤ B) (hr : 1 ≤ r) (hir : B⁻¹ ≤ i - r) (hiB : i ≤ B) :
    16 * t ≤ x / (x + i * r / (i - r)) := by
  have hB0 : 0 < B := by linarith
  have hBi : 0 < B⁻¹ := inv_pos.2 hB0
  have hd : 0 < i - r := hBi.trans_le hir
  have hrho : i * r / (i - r) ≤ B ^ 3 := by
    rw [div_le_iff₀ hd]
    have e1 : i * r ≤ B * B := mul_le_mul hiB (by linarith) (by linarith) hB0.le
    have e2 : B ^ 3 * B⁻¹ ≤ B ^ 3 * (i - r) := mul_le_mul_of_nonneg_left hir (by positivity)
    have e3 : B ^ 3 * B⁻¹ = B * B := by field_simp
    linarith
  have hrho0 : 0 < i * r / (i - r) := div_pos (mul_pos (by linarith) (by linarith)) hd
  have hx0 : 0 < x := hBi.trans_le hx
  have hB3 : B ≤ B ^ 3 := le_self_pow₀ hB (by norm_num)
  rw [le_div_iff₀ (by linarith)]
  have e1 : 16 * t * (x + i * r / (i - r)) ≤ 16 * t * (2 * B ^ 3) :=
    mul_le_mul_of_nonneg_left (by linarith) (by linarith)
  have e2 : t * (64 * B ^ 4) * B⁻¹ ≤ 1 * B⁻¹ := mul_le_mul_of_nonneg_right ht hBi.le
  have e3 : t * (64 * B ^ 4) * B⁻¹ = 64 * (t * B ^ 3) := by field_simp
  linarith

/-- One curve of the surface. -/
theorem goergCurveFl_facts (m : GoergModel) (hm : GoergFitted m) (pw : ℚ → Nat → ℚ) (hpw : PowerFl pw) :
    NearFl (2 ^ (-53 : ℤ)) 3 (GoergModel.rhoFl round64 m.impressions m.reach) m.rho ∧
    1 ≤ GoergModel.rhoFl round64 m.impressions m.reach ∧
    ∀ (n : Nat) (x x' : ℚ), n ≤ 3 → PlannedClose n x x' →
      m.plannerCurve.surface.reachAt x = .ok (m.rho * (x / (x + m.rho))) ∧
      m.rho * (x / (x + m.rho)) ≤ m.rho ∧
      CloseFl (2 ^ (-53 : ℤ)) (9 + n) (GoergModel.kplusFl round64 pw m.impressions m.reach x' 1)
        (m.rho * (x / (x + m.rho))) ∧
      GoergModel.kplusFl round64 pw m.impressions m.reach x' 1 ≤
        GoergModel.rhoFl round64 m.impressions m.reach := by
  obtain ⟨d, hd⟩ := hm.fitted
  obtain ⟨h1, -, -, hrho, hbeta⟩ := goerg_fitted d m hd
  have hr1 := hm.range.reach
  have hrep := hm.range.repeated
  have hbd := hm.range.bounded
  have hrho0 : 0 < m.rho := by
    rw [hrho]; exact div_pos (mul_pos (by linarith) (by linarith)) (by linarith)
  have hu : (2 : ℚ) ^ (-53 : ℤ) ≤ 1 / 100 := by norm_num
  have hult : (2 : ℚ) ^ (-53 : ℤ) < 1 := by norm_num
  have hu0 : (0 : ℚ) ≤ 2 ^ (-53 : ℤ) := (two_zpow_pos _).le
  have hB1 : (1 : ℚ) ≤ 2 ^ (200 : ℤ) := one_le_zpow₀ (by norm_num) (by norm_num)
  have ht := tiny_200
  have hBinv := two_200_inv
  have ht0 : (0 : ℚ) < 2 ^ (-1022 : ℤ) := two_zpow_pos _
  have hrel := relRounding64
  have hpw1 : ∀ y : ℚ, 0 < y → 2 ^ (-1022 : ℤ) ≤ y ^ 1 → NearFl (2 ^ (-53 : ℤ)) 0 (pw y 1) (y ^ 1) := by
    intro y hy _
    rw [hpw.one, pow_one]
    exact NearFl.refl hy
  have hd0 : 0 < m.impressions - m.reach := by linarith
  have htB : (2 : ℚ) ^ (-1022 : ℤ) ≤ m.impressions - m.reach :=
    (zpow_le_zpow_right₀ (by norm_num) (by norm_num)).trans hrep
  have ht1 : (2 : ℚ) ^ (-1022 : ℤ) ≤ 1 :=
    (zpow_le_zpow_right₀ (by norm_num) (by norm_num)).trans_eq (zpow_zero _)
  have hfd : 0 < round64 (m.impressions - m.reach) :=
    (NearFl.rnd hrel hult (NearFl.refl hd0) htB).apos
  have hq1 : 1 ≤ round64 (m.impressions * m.reach) / round64 (m.impressions - m.reach) :=
    (one_le_div hfd).2 (round64_mono _ _ hd0.le (by nlinarith))
  have hirr : 1 ≤ m.impressions * m.reach := by nlinarith
  have hnear := GoergModel.rhoFl_near hrel hult m.impressions m.reach (by linarith) h1
    (ht1.trans hirr) htB (ht1.trans hq1)
  rw [← hrho] at hnear
  have hone := rhoFl_one_le m.impressions m.reach hr1 h1 hfd
  refine ⟨hnear, hone, fun n x x' hn hx => ?_⟩
  have hx0 := hx.nonneg
  have hfix : round64 (goergRhoFl m.impressions m.reach) = goergRhoFl m.impressions m.reach :=
    round64_idem _ (by linarith)
  refine ⟨(plannerCurve_reachAt [d] m hd (by linarith) x hx0.1).1, ?_, ?_, ?_⟩
  · exact mul_le_of_le_one_right hrho0.le (div_le_one_of_le₀ (by linarith) (by linarith))
  · rcases hx.2 with ⟨rfl, rfl⟩ | ⟨hxn, hxl, hxu⟩
    · left
      have h0 : round64 0 = 0 := round64_zero
      unfold GoergModel.kplusFl
      rw [hpw.one, zero_div, zero_div, h0, mul_zero, mul_zero, h0]
      exact ⟨rfl, rfl⟩
    · right
      have hshare := goerg_share_ge _ _ x m.impressions m.reach ht0 hB1 ht
        (by rw [hBinv]; exact hxl) hxu hr1 (by rw [hBinv]; exact hrep) hbd
      have hn' : (n : ℚ) ≤ 3 := by exact_mod_cast hn
      have := GoergModel.kplusFl_bound hrel hu 1 0 (by norm_num) hpw1 (2 ^ (200 : ℤ)) m.impressions
        m.reach x x' hB1 ht hr1 (by rw [hBinv]; exact hrep) hbd (by rw [hBinv]; exact hxl) hxu n
        hn hxn (by
          push_cast
          have := mul_le_mul_of_nonneg_right hn' hu0
          linarith)
        (by rw [pow_one]; exact hshare)
      rw [pow_one, ← hrho, show 3 + (0 + (n + 4 + 1) * 1) + 1 = 9 + n by ring] at this
      exact this
  · rw [C28_float_one pw hpw]
    exact (C28_float _ x' (show 0 < GoergModel.rhoFl round64 m.impressions m.reach by linarith) hfix
      hx0.2 hx.1).2

/-- The pairwise union surface over Goerg curves. -/
def goergSurface (ms : List GoergModel) (a : List ℚ) (data : List ReachPoint) : PairwiseSurface :=
  { curves := ms.map (fun m => m.plannerCurve.surface), p := ms.length, a := a, data := data }

/-- The same surface with the curves on floats. -/
def goergSurfaceFl (rnd : ℚ → ℚ) (pw : ℚ → Nat → ℚ) (ms : List GoergModel) (a : List ℚ)
    (data : List ReachPoint) : PairwiseSurface :=
  { curves := ms.map (GoergModel.surfaceCurveFl rnd pw), p := ms.length, a := a, data := data }

/-- The prediction from rounded impressions. -/
theorem goergSurfaceFl_core (ms : List GoergModel) (hms : ∀ m ∈ ms, GoergFitted m) (pw : ℚ → Nat → ℚ)
    (hpw : PowerFl pw) (a : List ℚ) (data : List ReachPoint) (ha : a.length = ms.length * ms.length)
    (hp : ms.length ≤ 2 ^ 20)
    (hov : PlausibleOverlap ms.length (surfaceMatrix (goergSurface ms a data))) (v v' : List ℚ)
    (hv : v.length = ms.length) (hv' : v'.length = ms.length) (n : Nat) (hn : n ≤ 3)
    (hx : ∀ i (h : i < v.length) (h' : i < v'.length), PlannedClose n v[i] v'[i]) :
    ∃ r pt u rf y,
      PairwiseSurface.getReachVector (goergSurface ms a data).curves v = .ok r ∧
      (goergSurface ms a data).byImpressions v = .ok pt ∧ pt.impressions = v ∧ pt.reach 1 = .ok u ∧
      PairwiseSurface.getReachVector (goergSurfaceFl round64 pw ms a data).curves v' = .ok rf ∧
      (goergSurfaceFl round64 pw ms a data).predictFl round64 rf = .ok y ∧
      |y - u| ≤ (((ms.length : ℚ) + 3) ^ 2 + 5 + n / 2) * 2 ^ (-50 : ℤ) * r.sum + 2 ^ (-1000 : ℤ) := by
  set E := goergSurface ms a data with hE
  set F := goergSurfaceFl round64 pw ms a data with hF
  have facts := fun m hm => goergCurveFl_facts m (hms m hm) pw hpw
  have hr : PairwiseSurface.getReachVector E.curves v =
      .ok (List.zipWith (fun m x => m.rho * (x / (x + m.rho))) ms v) := by
    apply reachVector_zip
    intro q hq
    obtain ⟨i, hi, rfl⟩ := List.getElem_of_mem hq
    simp only [List.length_zip] at hi
    rw [List.getElem_zip]
    exact ((facts _ (List.getElem_mem (by omega))).2.2 n _ _ hn (hx i (by omega) (by omega))).1
  have hrf : PairwiseSurface.getReachVector F.curves v' = .ok (List.zipWith
      (fun m x => GoergModel.kplusFl round64 pw m.impressions m.reach x 1) ms v') := by
    apply reachVector_zip
    intro q hq
    rfl
  have hmaxE : ∀ i (hi : i < ms.length), surfaceMax E i = ms[i].rho := by
    intro i hi
    simp [surfaceMax, hE, goergSurface, GoergModel.plannerCurve, GoergModel.maxReach, hi]
  have hmaxF : ∀ i (hi : i < ms.length),
      surfaceMax F i = GoergModel.rhoFl round64 ms[i].impressions ms[i].reach := by
    intro i hi
    simp [surfaceMax, hF, goergSurfaceFl, GoergModel.surfaceCurveFl, hi]
  have hgr : ∀ i (hi : i < ms.length), (List.zipWith (fun m x => m.rho * (x / (x + m.rho))) ms v).getD i 0
      = ms[i].rho * (v[i] / (v[i] + ms[i].rho)) := fun i hi => zipWith_at _ _ _ i hi (by omega)
  have hgf : ∀ i (hi : i < ms.length), (List.zipWith
      (fun m x => GoergModel.kplusFl round64 pw m.impressions m.reach x 1) ms v').getD i 0
      = GoergModel.kplusFl round64 pw ms[i].impressions ms[i].reach v'[i] 1 :=
    fun i hi => zipWith_at _ _ _ i hi (by omega)
  have hlenr : (List.zipWith (fun (m : GoergModel) x => m.rho * (x / (x + m.rho))) ms v).length
      = ms.length := by simp [hv]
  have hlenf : (List.zipWith
      (fun (m : GoergModel) x => GoergModel.kplusFl round64 pw m.impressions m.reach x 1) ms v').length
      = ms.length := by simp [hv']
  generalize List.zipWith (fun (m : GoergModel) x => m.rho * (x / (x + m.rho))) ms v = r at *
  generalize List.zipWith
      (fun (m : GoergModel) x => GoergModel.kplusFl round64 pw m.impressions m.reach x 1) ms v' = rf at *
  have hEw : WellFormed E := by
    refine ⟨by simp [hE, goergSurface], ha, ?_⟩
    intro c hc
    obtain ⟨m, hm, rfl⟩ := List.mem_map.1 hc
    exact (facts m hm).1.bpos
  have hFone : ∀ c ∈ F.curves, 1 ≤ c.maxReach := by
    intro c hc
    obtain ⟨m, hm, rfl⟩ := List.mem_map.1 hc
    exact (facts m hm).2.1
  have hFw : WellFormed F :=
    ⟨by simp [hF, goergSurfaceFl], ha, fun c hc => by linarith [hFone c hc]⟩
  have hi : ∀ i (hi : i < ms.length), _ := fun i hi =>
    (facts ms[i] (List.getElem_mem hi)).2.2 n v[i] v'[i] hn (hx i (by omega) (by omega))
  have hFr : ReachesInRange F rf := by
    intro i h
    rw [hgf i h, hmaxF i h]
    exact ⟨(hi i h).2.2.1.nonneg.1, (hi i h).2.2.2⟩
  obtain ⟨pt, h1, h1v, -, h2⟩ := C30_formula E hEw v hv r hr
  obtain ⟨pf, uf, y, k1, k2, k3, k4, -, -⟩ := C30_float F hFw hFone hp hov v' hv' rf hrf hFr
  obtain ⟨pf', k1', -, -, k2'⟩ := C30_formula F hFw v' hv' rf hrf
  rw [k1] at k1'
  cases k1'
  rw [k2] at k2'
  have huf := Except.ok.inj k2'
  refine ⟨r, pt, _, rf, y, hr, h1, h1v, h2, hrf, k3, ?_⟩
  change |y - unionReach ms.length (surfaceMatrix E) (surfaceMax E) (fun i => r.getD i 0)| ≤ _
  have hu0 : (0 : ℚ) ≤ 2 ^ (-53 : ℤ) := (two_zpow_pos _).le
  have hu : (2 : ℚ) ^ (-53 : ℤ) ≤ 1 / 100 := by norm_num
  have hult : (2 : ℚ) ^ (-53 : ℤ) < 1 := by norm_num
  have hclose : ∀ i < ms.length, CloseFl (2 ^ (-53 : ℤ)) (9 + n) (rf.getD i 0) (r.getD i 0) := by
    intro i h
    rw [hgf i h, hgr i h]
    exact (hi i h).2.2.1
  have hn' : (n : ℚ) ≤ 3 := by exact_mod_cast hn
  have hn0 : (0 : ℚ) ≤ n := by positivity
  have hnu : (n : ℚ) * 2 ^ (-53 : ℤ) ≤ 3 * 2 ^ (-53 : ℤ) := mul_le_mul_of_nonneg_right hn' hu0
  have hcu : (2 * ((9 + n : ℕ) : ℚ) + 3) * 2 ^ (-53 : ℤ) ≤ 1 / 2 := by
    push_cast
    linarith
  have hcu' : ((9 + n : ℕ) : ℚ) * 2 ^ (-53 : ℤ) ≤ 1 / 2 := by
    push_cast
    linarith
  have hmain := unionReach_close hu0 (9 + n) hcu ms.length (surfaceMatrix E) hov (surfaceMax E) (surfaceMax F)
    (fun i => r.getD i 0) (fun i => rf.getD i 0)
    (fun i h => by rw [hmaxF i h, hmaxE i h]; exact (facts _ (List.getElem_mem h)).1) hclose
    (fun i h => by
      rw [hgr i h, hmaxE i h]
      exact (hi i h).2.1)
  have hsr : r.sum = ∑ i ∈ range ms.length, r.getD i 0 := by rw [list_sum_getD, hlenr]
  have hsf : rf.sum = ∑ i ∈ range ms.length, rf.getD i 0 := by rw [list_sum_getD, hlenf]
  have hS0 : 0 ≤ r.sum := by
    rw [hsr]
    exact sum_nonneg fun i h => (hclose i (mem_range.1 h)).nonneg.2
  have hsum : rf.sum ≤ (1 + 2 * (9 + n) * 2 ^ (-53 : ℤ)) * r.sum := by
    rw [hsr, hsf, mul_sum]
    refine sum_le_sum fun i h => ?_
    have := (_root_.abs_le.1 ((hclose i (mem_range.1 h)).abs_le hu0 hult hcu')).2
    push_cast at this
    linarith
  rw [← hsr] at hmain
  push_cast at hmain
  have e1 : |y - unionReach ms.length (surfaceMatrix E) (surfaceMax E) (fun i => r.getD i 0)| ≤
      |y - uf| + |uf - unionReach ms.length (surfaceMatrix E) (surfaceMax E) (fun i => r.getD i 0)| :=
    abs_sub_le _ _ _
  have e2 : |uf - unionReach ms.length (surfaceMatrix E) (surfaceMax E) (fun i => r.getD i 0)| ≤
      (4 * (9 + n) + 3) * 2 ^ (-53 : ℤ) * r.sum := by rw [huf]; exact hmain
  have hP : ((F.p : ℕ) : ℚ) = (ms.length : ℚ) := rfl
  rw [hP] at k4
  have hP1 : (ms.length : ℚ) ≤ 2 ^ 20 := by exact_mod_cast hp
  have hP0 : (0 : ℚ) ≤ ms.length := by positivity
  generalize (ms.length : ℚ) = P at *
  have hPP : (P + 3) ^ 2 ≤ 2 ^ 42 := by
    have : (P + 3) ^ 2 ≤ (2 ^ 20 + 3) ^ 2 := by gcongr
    refine this.trans (by norm_num)
  have e3 : (P + 3) ^ 2 * 2 ^ (-50 : ℤ) * rf.sum ≤
      (P + 3) ^ 2 * 2 ^ (-50 : ℤ) * ((1 + 2 * (9 + n) * 2 ^ (-53 : ℤ)) * r.sum) :=
    mul_le_mul_of_nonneg_left hsum (by positivity)
  have e4 : (P + 3) ^ 2 * (2 ^ (-50 : ℤ) * (24 * 2 ^ (-53 : ℤ)) * r.sum) ≤
      2 ^ 42 * (2 ^ (-50 : ℤ) * (24 * 2 ^ (-53 : ℤ)) * r.sum) :=
    mul_le_mul_of_nonneg_right hPP (by positivity)
  have e6 : (P + 3) ^ 2 * 2 ^ (-50 : ℤ) * ((1 + 2 * (9 + n) * 2 ^ (-53 : ℤ)) * r.sum) ≤
      (P + 3) ^ 2 * 2 ^ (-50 : ℤ) * ((1 + 24 * 2 ^ (-53 : ℤ)) * r.sum) :=
    mul_le_mul_of_nonneg_left (mul_le_mul_of_nonneg_right (by linarith) hS0) (by positivity)
  have e5 : ((2 : ℚ) ^ 42 * (2 ^ (-50 : ℤ) * (24 * 2 ^ (-53 : ℤ))) + 39 * 2 ^ (-53 : ℤ)) * r.sum ≤
      5 * 2 ^ (-50 : ℤ) * r.sum := mul_le_mul_of_nonneg_right (by norm_num) hS0
  have e7 : (n : ℚ) / 2 * 2 ^ (-50 : ℤ) * r.sum = 4 * n * 2 ^ (-53 : ℤ) * r.sum := by
    rw [show (2 : ℚ) ^ (-50 : ℤ) = 8 * 2 ^ (-53 : ℤ) by norm_num]
    ring
  clear hmain huf hsum hu hult hu0 hclose facts hi hcu hcu' hnu
  generalize (2 : ℚ) ^ (-1000 : ℤ) = z at *
  generalize (2 : ℚ) ^ (-50 : ℤ) = w at *
  generalize (2 : ℚ) ^ (-53 : ℤ) = q at *
  linarith

/-- **C30 (floats, curves and surface).** Over fitted Goerg curves, with every operation of the curves and of
the surface rounded, the predicted union reach differs from the exact prediction by at most
`((p + 3)² + 5) 2^-50` of the sum of the exact single reaches (and `2^-1000`). -/
theorem C30_float_goerg (ms : List GoergModel) (hms : ∀ m ∈ ms, GoergFitted m) (pw : ℚ → Nat → ℚ)
    (hpw : PowerFl pw) (a : List ℚ) (data : List ReachPoint) (ha : a.length = ms.length * ms.length)
    (hp : ms.length ≤ 2 ^ 20)
    (hov : PlausibleOverlap ms.length (surfaceMatrix (goergSurface ms a data))) (v : List ℚ)
    (hv : v.length = ms.length) (hx : ∀ x ∈ v, PlannedImpressions x) :
    ∃ r pt u rf y,
      PairwiseSurface.getReachVector (goergSurface ms a data).curves v = .ok r ∧
      (goergSurface ms a data).byImpressions v = .ok pt ∧ pt.reach 1 = .ok u ∧
      PairwiseSurface.getReachVector (goergSurfaceFl round64 pw ms a data).curves v = .ok rf ∧
      (goergSurfaceFl round64 pw ms a data).predictFl round64 rf = .ok y ∧
      |y - u| ≤ (((ms.length : ℚ) + 3) ^ 2 + 5) * 2 ^ (-50 : ℤ) * r.sum + 2 ^ (-1000 : ℤ) := by
  obtain ⟨r, pt, u, rf, y, h1, h2, -, h3, h4, h5, h6⟩ := goergSurfaceFl_core ms hms pw hpw a data ha hp hov v v
    hv hv 0 (by norm_num) (fun i h _ => (hx _ (List.getElem_mem h)).close)
  refine ⟨r, pt, u, rf, y, h1, h2, h3, h4, h5, ?_⟩
  simpa using h6

/-- C30: without rounding the curve on floats is the curve. -/
theorem C30_float_goerg_exact (d : ReachPoint) (m : GoergModel) (hm : GoergModel.new [d] = .ok m)
    (hr : 0 < m.reach) (x : ℚ) (hx : 0 ≤ x) :
    (GoergModel.surfaceCurveFl id (fun y k => y ^ k) m).maxReach = m.plannerCurve.surface.maxReach ∧
    (GoergModel.surfaceCurveFl id (fun y k => y ^ k) m).reachAt x =
      m.plannerCurve.surface.reachAt x := by
  obtain ⟨-, -, -, hrho, -⟩ := goerg_fitted d m hm
  rw [(plannerCurve_reachAt [d] m hm hr x hx).1]
  refine ⟨hrho.symm, ?_⟩
  unfold GoergModel.surfaceCurveFl GoergModel.kplusFl GoergModel.rhoFl
  simp only [id, pow_one, hrho]

/-- A fitted model with the spend of its training point. -/
structure GoergPriced (q : GoergModel × ℚ) : Prop where
  fitted : ∃ d, GoergModel.new [d] = .ok q.1 ∧ d.spends = some [q.2]
  range : GoergRange q.1
  spend : 2 ^ (-200 : ℤ) ≤ q.2

/-- A spend that is zero or buys a number of impressions neither tiny nor huge. -/
def PlannedSpend (q : GoergModel × ℚ) (spend : ℚ) : Prop :=
  spend = 0 ∨ (2 ^ (-200 : ℤ) ≤ spend * q.1.impressions / q.2 ∧
    spend * q.1.impressions / q.2 ≤ 2 ^ (200 : ℤ))

theorem PlannedSpend.close (q : GoergModel × ℚ) (hq : GoergPriced q) (sp : ℚ) (h : PlannedSpend q sp) :
    q.1.impressionsForSpend sp = .ok (sp * q.1.impressions / q.2) ∧
    PlannedClose 2 (sp * q.1.impressions / q.2)
      (GoergModel.spendImpressionsFl round64 q.1.impressions q.2 sp) := by
  obtain ⟨d, hd, hsp⟩ := hq.fitted
  obtain ⟨h1, h2, -, -, -⟩ := goerg_fitted d q.1 hd
  have hcpi : q.1.cpi = some (q.2 / q.1.impressions) := by
    obtain ⟨d0, i, r, k1, k2, k3, k4, k5, k6, k7, k8, k9, k10⟩ := (goerg_new_ok_iff _ q.1).1 hd
    cases k1
    rw [k10, hsp, k6]
    rfl
  have hi0 : 0 < q.1.impressions := by linarith [hq.range.reach]
  have hs0 : 0 < q.2 := (two_zpow_pos _).trans_le hq.spend
  have hc0 : 0 < q.2 / q.1.impressions := div_pos hs0 hi0
  have hdiv : sp / (q.2 / q.1.impressions) = sp * q.1.impressions / q.2 := by
    rw [div_div_eq_mul_div]
  have hult : (2 : ℚ) ^ (-53 : ℤ) < 1 := by norm_num
  have hu0 : (0 : ℚ) ≤ 2 ^ (-53 : ℤ) := (two_zpow_pos _).le
  have b1 : NearFl (2 ^ (-53 : ℤ)) 1 (round64 (q.2 / q.1.impressions)) (q.2 / q.1.impressions) := by
    refine NearFl.rnd relRounding64 hult (NearFl.refl hc0) ?_
    rw [le_div_iff₀ hi0]
    calc (2 : ℚ) ^ (-1022 : ℤ) * q.1.impressions ≤ 2 ^ (-400 : ℤ) * 2 ^ (200 : ℤ) :=
          mul_le_mul (zpow_le_zpow_right₀ (by norm_num) (by norm_num)) hq.range.bounded hi0.le
            (two_zpow_pos _).le
      _ = 2 ^ (-200 : ℤ) := by rw [← zpow_add₀ (by norm_num)]; norm_num
      _ ≤ q.2 := hq.spend
  refine ⟨?_, ?_⟩
  · unfold GoergModel.impressionsForSpend GoergModel.truthyCpi
    rw [hcpi]
    simp [hc0.ne', hdiv]
  · rcases h with rfl | ⟨hl, hu⟩
    · unfold GoergModel.spendImpressionsFl
      rw [zero_div, zero_mul, zero_div, round64_zero]
      exact ⟨round64_zero, Or.inl ⟨rfl, rfl⟩⟩
    · have hx0 : 0 < sp * q.1.impressions / q.2 := (two_zpow_pos _).trans_le hl
      have hsp0 : 0 < sp := by
        by_contra hneg
        have : sp * q.1.impressions / q.2 ≤ 0 :=
          div_nonpos_of_nonpos_of_nonneg (mul_nonpos_of_nonpos_of_nonneg (by linarith) hi0.le) hs0.le
        linarith
      have b2 : NearFl (2 ^ (-53 : ℤ)) (0 + 1) (sp / round64 (q.2 / q.1.impressions))
          (sp / (q.2 / q.1.impressions)) := (NearFl.refl hsp0).div hult b1
      rw [hdiv] at b2
      refine ⟨round64_idem _ b2.apos.le, Or.inr ⟨?_, hl, hu⟩⟩
      unfold GoergModel.spendImpressionsFl
      refine NearFl.rnd relRounding64 hult b2 ?_
      have c1 := (b2.factor hu0 hult (by norm_num)).1
      have c2 := tiny_16 (-200) (by norm_num)
      have c3 := two_zpow_pos (-1022)
      clear hu hu0 hult b1 b2
      generalize (2 : ℚ) ^ (-1022 : ℤ) = t at *
      generalize (2 : ℚ) ^ (-200 : ℤ) = b at *
      linarith

/-- **C84 (floats).** Over fitted Goerg curves with training spends, with every operation from the spends to
the union reach rounded, the prediction by spend differs from the exact one by at most
`((p + 3)² + 6) 2^-50` of the sum of the exact single reaches (and `2^-1000`). -/
theorem C84_float_goerg (qs : List (GoergModel × ℚ)) (hqs : ∀ q ∈ qs, GoergPriced q)
    (pw : ℚ → Nat → ℚ) (hpw : PowerFl pw) (a : List ℚ) (data : List ReachPoint)
    (ha : a.length = qs.length * qs.length) (hp : qs.length ≤ 2 ^ 20)
    (hov : PlausibleOverlap qs.length (surfaceMatrix (goergSurface (qs.map (·.1)) a data)))
    (spend : List ℚ) (hv : spend.length = qs.length) (hx : ∀ z ∈ qs.zip spend, PlannedSpend z.1 z.2)
    (F : Int) :
    ∃ v r pt u rf y,
      PairwiseSurface.getReachVector (goergSurface (qs.map (·.1)) a data).curves v = .ok r ∧
      (goergSurface (qs.map (·.1)) a data).bySpend (qs.map (·.1.plannerCurve)) spend F = .ok pt ∧
      pt.impressions = v ∧ pt.reach 1 = .ok u ∧
      PairwiseSurface.getReachVector (goergSurfaceFl round64 pw (qs.map (·.1)) a data).curves
        (List.zipWith (fun q s => GoergModel.spendImpressionsFl round64 q.1.impressions q.2 s) qs spend)
        = .ok rf ∧
      (goergSurfaceFl round64 pw (qs.map (·.1)) a data).predictFl round64 rf = .ok y ∧
      |y - u| ≤ (((qs.length : ℚ) + 3) ^ 2 + 6) * 2 ^ (-50 : ℤ) * r.sum + 2 ^ (-1000 : ℤ) := by
  have hlen : (qs.map (·.1)).length = qs.length := List.length_map _
  have hcl : ∀ i (h1 : i < qs.length) (h2 : i < spend.length), _ := fun i h1 h2 =>
    PlannedSpend.close qs[i] (hqs _ (List.getElem_mem h1)) spend[i] (hx (qs[i], spend[i])
      (List.mem_iff_getElem.2 ⟨i, by simp; omega, by simp⟩))
  obtain ⟨r, pt, u, rf, y, k1, k2, kv, k3, k4, k5, k6⟩ := goergSurfaceFl_core (qs.map (·.1))
    (by
      intro m hm
      obtain ⟨q, hq, rfl⟩ := List.mem_map.1 hm
      obtain ⟨d, hd, -⟩ := (hqs q hq).fitted
      exact ⟨⟨d, hd⟩, (hqs q hq).range⟩)
    pw hpw a data (by rw [hlen]; exact ha) (by rw [hlen]; exact hp) (by rw [hlen]; exact hov)
    (List.zipWith (fun q s => s * q.1.impressions / q.2) qs spend)
    (List.zipWith (fun q s => GoergModel.spendImpressionsFl round64 q.1.impressions q.2 s) qs spend)
    (by simp [hv]) (by simp [hv]) 2 (by norm_num)
    (by
      intro i h h'
      simp only [List.length_zipWith] at h
      rw [List.getElem_zipWith, List.getElem_zipWith]
      exact (hcl i (by omega) (by omega)).2)
  have hby : (goergSurface (qs.map (·.1)) a data).bySpend (qs.map (·.1.plannerCurve)) spend F =
      (goergSurface (qs.map (·.1)) a data).byImpressions
        (List.zipWith (fun q s => s * q.1.impressions / q.2) qs spend) := by
    unfold PairwiseSurface.bySpend
    refine C84_by_spend _ _ _ _ _ (by simp) ?_
    intro i h1 h2 h3
    simp only [List.length_map] at h1
    rw [List.getElem_zipWith, List.getElem_map]
    exact (hcl i h1 h2).1
  refine ⟨_, r, pt, u, rf, y, k1, by rw [hby]; exact k2, kv, k3, k4, k5, ?_⟩
  rw [hlen] at k6
  rw [show (((qs.length : ℚ) + 3) ^ 2 + 5 + ((2 : ℕ) : ℚ) / 2) = ((qs.length : ℚ) + 3) ^ 2 + 6 by
    push_cast; ring] at k6
  exact k6

/-- Two publishers, each fitted to a reach of 20 by 100 impressions, of which one shows no advertisement. -/
example : (∀ m ∈ [exGoerg, exGoerg], GoergFitted m) ∧
    PlausibleOverlap 2 (surfaceMatrix (goergSurface [exGoerg, exGoerg] [0, 1 / 2, 1 / 2, 0] [])) ∧
    (∀ x ∈ [(25 : ℚ), 0], PlannedImpressions x) := by
  refine ⟨?_, ?_, ?_⟩
  · intro m hm
    have : m = exGoerg := by simpa using hm
    subst this
    refine ⟨⟨exGoergPoint, by decide +kernel⟩, by decide +kernel, ?_, ?_⟩
    · have e2 : exGoerg.impressions - exGoerg.reach = 80 := by decide +kernel
      rw [e2]
      exact ((zpow_le_zpow_right₀ (by norm_num) (by norm_num)).trans_eq (zpow_zero _)).trans
        (by norm_num : (1 : ℚ) ≤ 80)
    · have e2 : exGoerg.impressions = 100 := by decide +kernel
      rw [e2]
      calc (100 : ℚ) ≤ 2 ^ (7 : ℤ) := by norm_num
        _ ≤ _ := zpow_le_zpow_right₀ (by norm_num) (by norm_num)
  · refine ⟨?_, ?_, ?_, ?_, ?_⟩ <;> decide +kernel
  · intro x hx
    simp only [List.mem_cons, List.not_mem_nil, or_false] at hx
    rcases hx with rfl | rfl
    · refine ⟨by decide +kernel, Or.inr ⟨?_, ?_⟩⟩
      · exact ((zpow_le_zpow_right₀ (by norm_num) (by norm_num)).trans_eq (zpow_zero _)).trans
          (by norm_num : (1 : ℚ) ≤ 25)
      · calc (25 : ℚ) ≤ 2 ^ (7 : ℤ) := by norm_num
          _ ≤ _ := zpow_le_zpow_right₀ (by norm_num) (by norm_num)
    · exact ⟨by decide +kernel, Or.inl rfl⟩

example : GoergPriced (exGoerg, 5) ∧ PlannedSpend (exGoerg, 5) 2 ∧ PlannedSpend (exGoerg, 5) 0 := by
  have one : (2 : ℚ) ^ (-200 : ℤ) ≤ 1 :=
    (zpow_le_zpow_right₀ (by norm_num) (by norm_num)).trans_eq (zpow_zero _)
  have big : (100 : ℚ) ≤ 2 ^ (200 : ℤ) := by
    calc (100 : ℚ) ≤ 2 ^ (7 : ℤ) := by norm_num
      _ ≤ _ := zpow_le_zpow_right₀ (by norm_num) (by norm_num)
  have e1 : exGoerg.impressions - exGoerg.reach = 80 := by decide +kernel
  have e2 : exGoerg.impressions = 100 := by decide +kernel
  have e3 : (2 : ℚ) * exGoerg.impressions / 5 = 40 := by decide +kernel
  refine ⟨⟨⟨exGoergPoint, by decide +kernel, rfl⟩, ⟨by decide +kernel, ?_, ?_⟩, ?_⟩, Or.inr ⟨?_, ?_⟩,
    Or.inl rfl⟩
  · exact (one.trans (by norm_num)).trans_eq e1.symm
  · exact e2.le.trans big
  · exact one.trans (by norm_num)
  · exact (one.trans (by norm_num)).trans_eq e3.symm
  · exact (e3.le.trans (by norm_num)).trans big

end Verif
