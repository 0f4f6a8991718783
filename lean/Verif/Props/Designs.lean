import Mathlib.Tactic.Ring
import Mathlib.Tactic.Linarith
import Mathlib.Tactic.FieldSimp
import Mathlib.Algebra.Order.Floor.Ring
import Verif.Model.Designs
import Verif.Model.Trial
import Verif.Lemmas.ListExcept
import Verif.Props.Descriptor
import Verif.Props.Design
import Verif.Props.Generators
import Verif.Props.TrialRow

/-!
# C79 to C81: the shipped designs
-/

namespace Verif

/-! ## Specification -/

/-- Each of the `N` strata `[k/N, (k+1)/N)` contains exactly one of the `N` values. -/
def IsLatinColumn (us : List ℚ) : Prop :=
  (us.map (fun u : ℚ => ⌊u * (us.length : ℚ)⌋)).Perm
    ((List.range us.length).map (fun k : Nat => (k : Int)))

/-- The level at position `j` of `L` belongs to the values in `[j/L, (j+1)/L)`. -/
def LevelFor {α : Type} (levels : List α) (u : ℚ) (x : α) : Prop :=
  ∃ j : Nat, levels[j]? = some x ∧ (j : ℚ) / (levels.length : ℚ) ≤ u ∧
    u < ((j : ℚ) + 1) / (levels.length : ℚ)

/-! ## C79 -/

theorem pickLevel_ok_iff {α : Type} (levels : List α) (u : ℚ) (h0 : 0 ≤ u) (x : α) :
    pickLevel levels u = .ok x ↔ LevelFor levels u x := by
  unfold pickLevel pyInt LevelFor
  have hL : (0 : ℚ) ≤ (levels.length : ℚ) := by positivity
  have hnn : 0 ≤ u * (levels.length : ℚ) := mul_nonneg h0 hL
  rw [if_pos hnn]
  obtain ⟨n, hn⟩ : ∃ n : Nat, ⌊u * (levels.length : ℚ)⌋ = (n : Int) :=
    ⟨_, (Int.toNat_of_nonneg (Int.floor_nonneg.2 hnn)).symm⟩
  rw [hn, pyIndex_ok_iff]
  have hb := Int.floor_eq_iff.1 hn
  constructor
  · intro hx
    have hlt : n < levels.length := by
      by_contra hc
      rw [List.getElem?_eq_none (by omega)] at hx
      cases hx
    have hpos : (0 : ℚ) < (levels.length : ℚ) := by exact_mod_cast (by omega : 0 < levels.length)
    refine ⟨n, hx, ?_, ?_⟩
    · rw [div_le_iff₀ hpos]; exact_mod_cast hb.1
    · rw [lt_div_iff₀ hpos]; exact_mod_cast hb.2
  · rintro ⟨j, hx, h1, h2⟩
    have hlt : j < levels.length := by
      by_contra hc
      rw [List.getElem?_eq_none (by omega)] at hx
      cases hx
    have hpos : (0 : ℚ) < (levels.length : ℚ) := by exact_mod_cast (by omega : 0 < levels.length)
    rw [div_le_iff₀ hpos] at h1
    rw [lt_div_iff₀ hpos] at h2
    have : ⌊u * (levels.length : ℚ)⌋ = (j : Int) := by
      rw [Int.floor_eq_iff]
      exact ⟨by exact_mod_cast h1, by exact_mod_cast h2⟩
    rw [hn] at this
    have : n = j := by exact_mod_cast this
    rw [this]; exact hx

/-- **C79 (a).** For a sample value in `[0, 1)` and a non-empty list of levels, a level is found (there
is no `IndexError`), and it is the one whose interval contains the value. -/
theorem C79_pick {α : Type} (levels : List α) (hl : levels ≠ []) (u : ℚ) (h0 : 0 ≤ u) (h1 : u < 1) :
    (∃ x, pickLevel levels u = .ok x) ∧
    ∀ x, pickLevel levels u = .ok x ↔ LevelFor levels u x := by
  refine ⟨?_, pickLevel_ok_iff levels u h0⟩
  have hpos : (0 : ℚ) < (levels.length : ℚ) := by
    exact_mod_cast List.length_pos_of_ne_nil hl
  have hnn : 0 ≤ u * (levels.length : ℚ) := mul_nonneg h0 hpos.le
  obtain ⟨n, hn⟩ : ∃ n : Nat, ⌊u * (levels.length : ℚ)⌋ = (n : Int) :=
    ⟨_, (Int.toNat_of_nonneg (Int.floor_nonneg.2 hnn)).symm⟩
  have hb := Int.floor_eq_iff.1 hn
  have hlt : n < levels.length := by
    have : (n : ℚ) < (levels.length : ℚ) := by
      calc (n : ℚ) ≤ u * (levels.length : ℚ) := by exact_mod_cast hb.1
        _ < 1 * (levels.length : ℚ) := by exact mul_lt_mul_of_pos_right h1 hpos
        _ = _ := one_mul _
    exact_mod_cast this
  refine ⟨levels[n], (pickLevel_ok_iff levels u h0 _).2 ⟨n, List.getElem?_eq_getElem hlt, ?_, ?_⟩⟩
  · rw [div_le_iff₀ hpos]; exact_mod_cast hb.1
  · rw [lt_div_iff₀ hpos]; exact_mod_cast hb.2

example : pickLevel [10, 20, 30] (2/3) = .ok 30 ∧ pickLevel [10, 20, 30] (1/2) = .ok 20 ∧
    LevelFor [10, 20, 30] (1/2) 20 := by
  refine ⟨by decide +kernel, by decide +kernel, 1, rfl, ?_, ?_⟩ <;> norm_num

/-- A value of 1 would be out of range. -/
example : pickLevel [10, 20, 30] 1 = .error .indexError := by decide +kernel

theorem IsLatinColumn.unit {us : List ℚ} (h : IsLatinColumn us) : ∀ u ∈ us, 0 ≤ u ∧ u < 1 := by
  intro u hu
  have hm := h.mem_iff.1 (List.mem_map_of_mem (f := fun u : ℚ => ⌊u * (us.length : ℚ)⌋) hu)
  rw [List.mem_map] at hm
  obtain ⟨k, hk, he⟩ := hm
  rw [List.mem_range] at hk
  have hb := Int.floor_eq_iff.1 he.symm
  have hpos : (0 : ℚ) < (us.length : ℚ) := by exact_mod_cast (by omega : 0 < us.length)
  constructor
  · have h1 : 0 ≤ u * (us.length : ℚ) := le_trans (by exact_mod_cast Nat.zero_le k) hb.1
    exact nonneg_of_mul_nonneg_left h1 hpos
  · have h2 : u * (us.length : ℚ) < 1 * (us.length : ℚ) := by
      refine lt_of_lt_of_le hb.2 ?_
      rw [one_mul]
      exact_mod_cast hk
    exact lt_of_mul_lt_mul_right h2 hpos.le

theorem countP_range_lt (N m : Nat) : (List.range N).countP (fun k => k < m) = min m N := by
  induction N with
  | zero => simp
  | succ n ih =>
    rw [List.range_succ, List.countP_append, ih]
    by_cases h : n < m
    · simp [h]; omega
    · simp [h]; omega

theorem IsLatinColumn.countP_floor_lt {us : List ℚ} (h : IsLatinColumn us) (m : Nat) :
    us.countP (fun u : ℚ => ⌊u * (us.length : ℚ)⌋ < (m : Int)) = min m us.length := by
  have h1 := h.countP_eq (fun z : Int => z < (m : Int))
  rw [List.countP_map, List.countP_map] at h1
  have h2 : ((fun z : Int => decide (z < (m : Int))) ∘ fun k : Nat => (k : Int))
      = fun k : Nat => decide (k < m) := by
    funext k; simp
  rw [h2, countP_range_lt] at h1
  exact h1

/-- Between `⌊tN⌋` and `⌈tN⌉` of `N` Latin values are below `t`. -/
theorem IsLatinColumn.countP_lt {us : List ℚ} (h : IsLatinColumn us) (t : ℚ) (h0 : 0 ≤ t) (h1 : t ≤ 1) :
    t * (us.length : ℚ) - 1 < (us.countP (fun u => u < t) : ℚ) ∧
    (us.countP (fun u => u < t) : ℚ) < t * (us.length : ℚ) + 1 ∧
    ∀ m : Nat, t * (us.length : ℚ) = m → us.countP (fun u => u < t) = m := by
  have hN : (0 : ℚ) ≤ (us.length : ℚ) := by positivity
  have htn : 0 ≤ t * (us.length : ℚ) := mul_nonneg h0 hN
  have htN : t * (us.length : ℚ) ≤ (us.length : ℚ) := by nlinarith
  have hlen : ∀ u ∈ us, (0 : ℚ) < (us.length : ℚ) := by
    intro u hu
    exact_mod_cast List.length_pos_of_mem hu
  have lower : ⌊t * (us.length : ℚ)⌋₊ ≤ us.countP (fun u => u < t) := by
    have hle : ⌊t * (us.length : ℚ)⌋₊ ≤ us.length := by
      have : (⌊t * (us.length : ℚ)⌋₊ : ℚ) ≤ (us.length : ℚ) := (Nat.floor_le htn).trans htN
      exact_mod_cast this
    have := h.countP_floor_lt ⌊t * (us.length : ℚ)⌋₊
    rw [Nat.min_eq_left hle] at this
    calc ⌊t * (us.length : ℚ)⌋₊
        = us.countP (fun u : ℚ => ⌊u * (us.length : ℚ)⌋ < (⌊t * (us.length : ℚ)⌋₊ : Int)) := this.symm
      _ ≤ _ := by
        apply List.countP_mono_left
        intro u hu hlt
        simp only [decide_eq_true_eq] at hlt ⊢
        by_contra hc
        push Not at hc
        have : t * (us.length : ℚ) ≤ u * (us.length : ℚ) := mul_le_mul_of_nonneg_right hc hN
        have h3 := Int.floor_le_floor this
        rw [Int.natCast_floor_eq_floor htn] at hlt
        omega
  have upper : us.countP (fun u => u < t) ≤ ⌈t * (us.length : ℚ)⌉₊ := by
    have := h.countP_floor_lt ⌈t * (us.length : ℚ)⌉₊
    refine le_trans ?_ (this.le.trans (Nat.min_le_left _ _))
    apply List.countP_mono_left
    intro u hu hlt
    simp only [decide_eq_true_eq] at hlt ⊢
    rw [Int.floor_lt]
    refine lt_of_lt_of_le (mul_lt_mul_of_pos_right hlt (hlen u hu)) ?_
    exact_mod_cast Nat.le_ceil (t * (us.length : ℚ))
  refine ⟨?_, ?_, ?_⟩
  · have h2 := Nat.lt_floor_add_one (t * (us.length : ℚ))
    have h3 : (⌊t * (us.length : ℚ)⌋₊ : ℚ) ≤ (us.countP (fun u => u < t) : ℚ) := by
      exact_mod_cast lower
    linarith
  · have h2 := Nat.ceil_lt_add_one htn
    have h3 : (us.countP (fun u => u < t) : ℚ) ≤ (⌈t * (us.length : ℚ)⌉₊ : ℚ) := by
      exact_mod_cast upper
    linarith
  · intro m hm
    rw [hm, Nat.floor_natCast] at lower
    rw [hm, Nat.ceil_natCast] at upper
    omega

theorem countP_between (us : List ℚ) (a b : ℚ) (hab : a ≤ b) :
    us.countP (fun u => a ≤ u ∧ u < b) + us.countP (fun u => u < a) =
      us.countP (fun u => u < b) := by
  induction us with
  | nil => rfl
  | cons u us ih =>
    simp only [List.countP_cons]
    by_cases h1 : u < a
    · have h2 : u < b := lt_of_lt_of_le h1 hab
      have h3 : ¬ (a ≤ u) := not_le.2 h1
      simp only [h1, h2, h3, false_and, decide_false, decide_true, if_true]
      simp only [Bool.false_eq_true, if_false]
      omega
    · have h3 : a ≤ u := not_lt.1 h1
      by_cases h2 : u < b
      · simp only [h1, h2, h3, true_and, decide_false, decide_true, if_true]
        simp only [Bool.false_eq_true, if_false]
        omega
      · simp only [h1, h2, and_false, decide_false, Bool.false_eq_true, if_false]
        omega

/-- **C79 (b).** If the `N` sample values have one value in each stratum, each of `L` different levels
is chosen `N/L` times, up to less than two more or less, and exactly `N/L` times if `L` divides
`N`. -/
theorem C79_balanced {α : Type} [DecidableEq α] (levels : List α) (hnd : levels.Nodup)
    (us : List ℚ) (hus : IsLatinColumn us) (xs : List α) (hxs : us.mapM (pickLevel levels) = .ok xs)
    (x : α) (hx : x ∈ levels) :
    (us.length : ℚ) / (levels.length : ℚ) - 2 < (xs.count x : ℚ) ∧
    (xs.count x : ℚ) < (us.length : ℚ) / (levels.length : ℚ) + 2 ∧
    (levels.length ∣ us.length → xs.count x = us.length / levels.length) := by
  obtain ⟨j, hj, hjx⟩ := List.getElem_of_mem hx
  have hpos : (0 : ℚ) < (levels.length : ℚ) := by exact_mod_cast (by omega : 0 < levels.length)
  set L : ℚ := (levels.length : ℚ) with hLdef
  have hcount : xs.count x = us.countP (fun u => (j : ℚ) / L ≤ u ∧ u < ((j : ℚ) + 1) / L) := by
    have hun := hus.unit
    have hF := (mapM_ok_iff _ _ _).1 hxs
    clear hxs hus
    induction hF with
    | nil => rfl
    | @cons u y us ys huy _ ih =>
      have ih' := ih (fun v hv => hun v (List.mem_cons_of_mem _ hv))
      rw [List.count_cons, List.countP_cons, ih']
      congr 1
      have h0 := (hun u (by simp)).1
      have key : y = x ↔ ((j : ℚ) / L ≤ u ∧ u < ((j : ℚ) + 1) / L) := by
        have hy := (pickLevel_ok_iff levels u h0 y).1 huy
        constructor
        · rintro rfl
          obtain ⟨j', h1, h2, h3⟩ := hy
          have : j' = j := by
            obtain ⟨hlt, he⟩ := List.getElem?_eq_some_iff.1 h1
            exact (List.Nodup.getElem_inj_iff hnd).1 (he.trans hjx.symm)
          rw [this] at h2 h3
          exact ⟨h2, h3⟩
        · rintro ⟨h2, h3⟩
          have h4 : LevelFor levels u x := ⟨j, by rw [List.getElem?_eq_getElem hj, hjx], h2, h3⟩
          have h5 := (pickLevel_ok_iff levels u h0 x).2 h4
          rw [huy] at h5
          exact Except.ok.inj h5
      by_cases hk : y = x
      · simp [hk, key.1 hk]
      · rw [if_neg (by simpa using hk), if_neg (by simpa using fun h => hk (key.2 h))]
  have hjL : (j : ℚ) + 1 ≤ L := by rw [hLdef]; exact_mod_cast hj
  have hab : (j : ℚ) / L ≤ ((j : ℚ) + 1) / L := by
    apply div_le_div_of_nonneg_right _ hpos.le; linarith
  have h0a : 0 ≤ (j : ℚ) / L := by positivity
  have h1b : ((j : ℚ) + 1) / L ≤ 1 := by rw [div_le_one hpos]; exact hjL
  have hsum := countP_between us _ _ hab
  rw [← hcount] at hsum
  obtain ⟨a1, a2, a3⟩ := hus.countP_lt _ h0a (hab.trans h1b)
  obtain ⟨b1, b2, b3⟩ := hus.countP_lt _ (h0a.trans hab) h1b
  have hsumq : (xs.count x : ℚ) + (us.countP (fun u => u < (j : ℚ) / L) : ℚ) =
      (us.countP (fun u => u < ((j : ℚ) + 1) / L) : ℚ) := by exact_mod_cast hsum
  have e1 : (j : ℚ) / L * (us.length : ℚ) = (j : ℚ) * ((us.length : ℚ) / L) := by ring
  have e2 : ((j : ℚ) + 1) / L * (us.length : ℚ) =
      (j : ℚ) * ((us.length : ℚ) / L) + (us.length : ℚ) / L := by ring
  rw [e1] at a1 a2 a3
  rw [e2] at b1 b2 b3
  refine ⟨by linarith, by linarith, ?_⟩
  rintro ⟨q, hq⟩
  have hLn : 0 < levels.length := by omega
  have hqd : us.length / levels.length = q := by rw [hq]; exact Nat.mul_div_cancel_left q hLn
  have hqq : (us.length : ℚ) / L = (q : ℚ) := by
    rw [hq]; push_cast; rw [← hLdef]; field_simp
  rw [hqq] at a3 b3
  have := a3 (j * q) (by push_cast; ring)
  have := b3 (j * q + q) (by push_cast; ring)
  rw [hqd]
  omega

/-- Five values, one in each fifth. -/
def exLatin : List ℚ := [7/10, 1/10, 9/10, 3/10, 5/10]

example : IsLatinColumn exLatin ∧ [10, 20].Nodup ∧
    exLatin.mapM (pickLevel [10, 20]) = .ok [20, 10, 20, 10, 20] := by
  refine ⟨?_, by decide, by decide +kernel⟩
  unfold IsLatinColumn
  decide +kernel

/-- Each parameter of the `i`-th data set is the level belonging to the sample value in the column of
that parameter, except for the arguments of the overlap generator, which are adjusted; its id is its
number, and no name is given. -/
def LhsChoice (L : DataSetLevels) (adjust : Int → GeneratorParams → Except PyErr GeneratorParams)
    (i : Nat) (sample : Fin 6 → ℚ) (p : DataSetParams) : Prop :=
  LevelFor L.numPublishers (sample 0) p.numPublishers ∧
  LevelFor L.largest (sample 1) p.largestSize ∧
  LevelFor L.ratios (sample 2) p.ratio ∧
  LevelFor L.pricing (sample 3) p.pricing ∧
  LevelFor L.impressions (sample 4) p.impressions ∧
  (∃ raw, LevelFor L.overlaps (sample 5) raw ∧ adjust p.largestSize raw = .ok p.overlaps) ∧
  p.id = showNat i ∧ p.name = []

theorem lhsDataSet_ok {L : DataSetLevels}
    {adjust : Int → GeneratorParams → Except PyErr GeneratorParams} {i : Nat} {sample : Fin 6 → ℚ}
    {p : DataSetParams} (h0 : ∀ k, 0 ≤ sample k) (h : lhsDataSet L adjust i sample = .ok p) :
    LhsChoice L adjust i sample p := by
  unfold lhsDataSet at h
  rcases h1 : pickLevel L.numPublishers (sample 0) with e | a <;>
    simp only [h1, bind, Except.bind, pure, Except.pure] at h
  · cases h
  rcases h2 : pickLevel L.largest (sample 1) with e | b <;> simp only [h2] at h
  · cases h
  rcases h3 : pickLevel L.ratios (sample 2) with e | c <;> simp only [h3] at h
  · cases h
  rcases h4 : pickLevel L.pricing (sample 3) with e | d <;> simp only [h4] at h
  · cases h
  rcases h5 : pickLevel L.impressions (sample 4) with e | f <;> simp only [h5] at h
  · cases h
  rcases h6 : pickLevel L.overlaps (sample 5) with e | g <;> simp only [h6] at h
  · cases h
  rcases h7 : adjust b g with e | o <;> simp only [h7] at h
  · cases h
  cases h
  exact ⟨(pickLevel_ok_iff _ _ (h0 _) _).1 h1, (pickLevel_ok_iff _ _ (h0 _) _).1 h2,
    (pickLevel_ok_iff _ _ (h0 _) _).1 h3, (pickLevel_ok_iff _ _ (h0 _) _).1 h4,
    (pickLevel_ok_iff _ _ (h0 _) _).1 h5, ⟨g, (pickLevel_ok_iff _ _ (h0 _) _).1 h6, h7⟩, rfl, rfl⟩

theorem LevelFor.mem {α : Type} {levels : List α} {u : ℚ} {x : α} (h : LevelFor levels u x) :
    x ∈ levels := by
  obtain ⟨j, hj, -⟩ := h
  exact List.mem_of_getElem? hj

/-- **C79 (c).** If all sample values are in `[0, 1)`, no list of levels is empty and the overlap levels
can be adjusted, the design is generated: one data set per sample, numbered from zero, with the levels
that belong to the sample values. -/
theorem C79_design (L : DataSetLevels)
    (adjust : Int → GeneratorParams → Except PyErr GeneratorParams) (samples : List (Fin 6 → ℚ))
    (hs : ∀ s ∈ samples, ∀ k, 0 ≤ s k ∧ s k < 1)
    (h1 : L.numPublishers ≠ []) (h2 : L.largest ≠ []) (h3 : L.ratios ≠ []) (h4 : L.pricing ≠ [])
    (h5 : L.impressions ≠ []) (h6 : L.overlaps ≠ [])
    (hadj : ∀ n ∈ L.largest, ∀ o ∈ L.overlaps, ∃ o', adjust n o = .ok o') :
    ∃ ps, lhsDataDesign L adjust samples = .ok ps ∧ ps.length = samples.length ∧
      ∀ i (hi : i < samples.length) (hi' : i < ps.length),
        LhsChoice L adjust i samples[i] ps[i] := by
  have hone : ∀ i (s : Fin 6 → ℚ), s ∈ samples → ∃ p, lhsDataSet L adjust i s = .ok p := by
    intro i s hm
    obtain ⟨⟨a, e1⟩, -⟩ := C79_pick _ h1 (s 0) (hs s hm 0).1 (hs s hm 0).2
    obtain ⟨⟨b, e2⟩, -⟩ := C79_pick _ h2 (s 1) (hs s hm 1).1 (hs s hm 1).2
    obtain ⟨⟨c, e3⟩, -⟩ := C79_pick _ h3 (s 2) (hs s hm 2).1 (hs s hm 2).2
    obtain ⟨⟨d, e4⟩, -⟩ := C79_pick _ h4 (s 3) (hs s hm 3).1 (hs s hm 3).2
    obtain ⟨⟨e, e5⟩, -⟩ := C79_pick _ h5 (s 4) (hs s hm 4).1 (hs s hm 4).2
    obtain ⟨⟨f, e6⟩, -⟩ := C79_pick _ h6 (s 5) (hs s hm 5).1 (hs s hm 5).2
    obtain ⟨o, e7⟩ := hadj b ((pickLevel_ok_iff _ _ (hs s hm 1).1 _).1 e2).mem f
      ((pickLevel_ok_iff _ _ (hs s hm 5).1 _).1 e6).mem
    refine ⟨⟨[], a, b, c, d, e, o, showNat i⟩, ?_⟩
    unfold lhsDataSet
    simp only [e1, e2, e3, e4, e5, e6, e7, bind, Except.bind, pure, Except.pure]
  have : Nonempty DataSetParams :=
    ⟨⟨[], 0, 0, 0, ⟨[], 0, []⟩, ⟨[], 0, []⟩, ⟨[], 0, []⟩, []⟩⟩
  choose! f hf using hone
  refine ⟨samples.zipIdx.map (fun si => f si.2 si.1), ?_, by simp, ?_⟩
  · unfold lhsDataDesign
    rw [mapM_ok_iff, List.forall₂_map_right_iff, List.forall₂_same]
    intro si hsi
    exact hf si.2 si.1 (List.fst_mem_of_mem_zipIdx hsi)
  · intro i hi hi'
    have := lhsDataSet_ok (fun k => (hs samples[i] (List.getElem_mem hi) k).1)
      (hf i samples[i] (List.getElem_mem hi))
    simpa using this

theorem last_split {c : Char} : ∀ {a b x y : Text}, c ∉ x → c ∉ y → a ++ c :: x = b ++ c :: y →
    x = y := by
  intro a
  induction a with
  | nil =>
    intro b x y hx hy h
    cases b with
    | nil => simpa using h
    | cons d b =>
      simp only [List.nil_append, List.cons_append, List.cons.injEq] at h
      exact absurd (h.2 ▸ (by simp : c ∈ b ++ c :: y)) hx
  | cons d a ih =>
    intro b x y hx hy h
    cases b with
    | nil =>
      simp only [List.nil_append, List.cons_append, List.cons.injEq] at h
      exact absurd (h.2 ▸ (by simp : c ∈ a ++ c :: x)) hy
    | cons e b =>
      simp only [List.cons_append, List.cons.injEq] at h
      exact ih hx hy h.2

theorem str_of_id (T : FloatText) (p : DataSetParams) (i : Nat) (hn : p.name = [])
    (hid : p.id = showNat i) : ∃ pre, p.str T = pre ++ '=' :: showNat i := by
  have hne : p.id ≠ [] := by rw [hid]; exact showNat_ne_nil i
  unfold DataSetParams.str
  rw [if_neg (by simpa using hn), if_pos hne, hid]
  have : ",id=".toList = ",id".toList ++ ['='] := by decide
  rw [this]
  refine ⟨"P=".toList ++ (showInt p.numPublishers ++ ',' ::
      ("N=".toList ++ (showInt p.largestSize ++ ',' ::
        ("pub_ratio=".toList ++ (T.fmt p.ratio ++ ',' ::
          ("pricing=".toList ++ (p.pricing.str ++ ',' ::
            ("impressions=".toList ++ (p.impressions.str ++ ',' ::
              ("overlaps=".toList ++ (p.overlaps.str ++ ",id".toList))))))))))), ?_⟩
  simp only [List.append_assoc, List.cons_append, List.nil_append]

/-- **C79 (d).** The data sets of a Latin hypercube design have pairwise different names, whatever
levels were chosen, so that none is refused as already present. -/
theorem C79_names (T : FloatText) (L : DataSetLevels)
    (adjust : Int → GeneratorParams → Except PyErr GeneratorParams) (samples : List (Fin 6 → ℚ))
    (hs : ∀ s ∈ samples, ∀ k, 0 ≤ s k) (ps : List DataSetParams)
    (h : lhsDataDesign L adjust samples = .ok ps) : (ps.map (fun p => p.str T)).Nodup := by
  unfold lhsDataDesign at h
  rw [mapM_ok_iff] at h
  obtain ⟨hlen, hF⟩ := forall₂_zipIdx h
  have hid : ∀ i (hi : i < ps.length), ps[i].id = showNat i ∧ ps[i].name = [] := by
    intro i hi
    have := lhsDataSet_ok (fun k => hs _ (List.getElem_mem _) k) (hF i (by omega) hi)
    exact this.2.2.2.2.2.2
  have hdig : ∀ n, '=' ∉ showNat n := by
    intro n hm
    have := showNat_digits n _ hm
    revert this; decide
  rw [List.nodup_iff_injective_get]
  intro a b hab
  have ha : a.1 < ps.length := by simpa using a.2
  have hb : b.1 < ps.length := by simpa using b.2
  simp only [List.get_eq_getElem, List.getElem_map] at hab
  obtain ⟨pa, ea⟩ := str_of_id T ps[a.1] a.1 (hid _ ha).2 (hid _ ha).1
  obtain ⟨pb, eb⟩ := str_of_id T ps[b.1] b.1 (hid _ hb).2 (hid _ hb).1
  rw [ea, eb] at hab
  exact Fin.ext (showNat_inj (last_split (hdig _) (hdig _) hab))

/-- A sample for the examples. -/
def exLevels : DataSetLevels where
  numPublishers := [1, 2, 5]
  largest := [100, 200]
  ratios := [9/10]
  pricing := [⟨"FixedPrice".toList, 0, [("cost_per_impression".toList, "0.1".toList)]⟩]
  impressions := [⟨"Homogeneous".toList, 1, [("poisson_lambda".toList, "3.0".toList)]⟩]
  overlaps := [⟨"FullOverlap".toList, 2, []⟩,
    ⟨"Independent".toList, 3, [("largest_pub_to_universe_ratio".toList, "3/4".toList),
      ("random_generator".toList, "2".toList)]⟩]

example : (lhsDataDesign exLevels (m3Overlap fracText)
      [fun _ => 1/4, fun _ => 3/4, fun _ => 1/4]).map (List.map (fun p => String.ofList (p.str fracText)))
    = .ok ["P=1,N=100,pub_ratio=9/10,pricing=FixedPrice(cost_per_impression=0.1)," ++
        "impressions=Homogeneous(poisson_lambda=3.0),overlaps=FullOverlap,id=0",
      "P=5,N=200,pub_ratio=9/10,pricing=FixedPrice(cost_per_impression=0.1)," ++
        "impressions=Homogeneous(poisson_lambda=3.0)," ++
        "overlaps=Independent(universe_size=266,random_generator=2),id=1",
      "P=1,N=100,pub_ratio=9/10,pricing=FixedPrice(cost_per_impression=0.1)," ++
        "impressions=Homogeneous(poisson_lambda=3.0),overlaps=FullOverlap,id=2"] := by
  decide +kernel

/-- The hypotheses of `C79_design` and `C79_names`. -/
example : (∀ s ∈ [fun _ : Fin 6 => (1/4 : ℚ), fun _ => 3/4], ∀ k, 0 ≤ s k ∧ s k < 1) ∧
    (∀ n ∈ exLevels.largest, ∀ o ∈ exLevels.overlaps, ∃ o', m3Overlap fracText n o = .ok o') := by
  refine ⟨by decide +kernel, ?_⟩
  have h : ∀ n ∈ exLevels.largest, ∀ o ∈ exLevels.overlaps,
      ((m3Overlap fracText n o).toOption).isSome = true := by decide +kernel
  intro n hn o ho
  have := h n hn o ho
  rcases hm : m3Overlap fracText n o with e | o'
  · rw [hm] at this; cases this
  · exact ⟨o', rfl⟩

/-! ## C80 -/

/-- All combinations of the levels of a data design. -/
theorem factorialDataDesign_eq (L : DataSetLevels) :
    factorialDataDesign L = (L.numPublishers ×ˢ L.largest ×ˢ L.ratios ×ˢ L.pricing ×ˢ
      L.impressions ×ˢ L.overlaps).map
      (fun t => ⟨[], t.1, t.2.1, t.2.2.1, t.2.2.2.1, t.2.2.2.2.1, t.2.2.2.2.2, []⟩) := by
  unfold factorialDataDesign
  simp only [SProd.sprod, List.product, List.map_flatMap, List.map_map]
  rfl

/-- **C80 (a).** A full factorial data design contains exactly the parameter sets whose parameters are
levels, with neither name nor id, each of them once if the levels of each parameter are different, and
their number is the product of the numbers of levels. -/
theorem C80_data_sets (L : DataSetLevels) :
    (∀ p, p ∈ factorialDataDesign L ↔ p.name = [] ∧ p.id = [] ∧ p.numPublishers ∈ L.numPublishers ∧
      p.largestSize ∈ L.largest ∧ p.ratio ∈ L.ratios ∧ p.pricing ∈ L.pricing ∧
      p.impressions ∈ L.impressions ∧ p.overlaps ∈ L.overlaps) ∧
    (factorialDataDesign L).length = L.numPublishers.length * L.largest.length * L.ratios.length *
      L.pricing.length * L.impressions.length * L.overlaps.length ∧
    (L.numPublishers.Nodup → L.largest.Nodup → L.ratios.Nodup → L.pricing.Nodup →
      L.impressions.Nodup → L.overlaps.Nodup → (factorialDataDesign L).Nodup) := by
  rw [factorialDataDesign_eq]
  refine ⟨?_, ?_, ?_⟩
  · intro p
    simp only [List.mem_map, Prod.exists, List.mem_product]
    constructor
    · rintro ⟨a, b, c, d, e, f, ⟨h1, h2, h3, h4, h5, h6⟩, rfl⟩
      exact ⟨rfl, rfl, h1, h2, h3, h4, h5, h6⟩
    · rintro ⟨hn, hid, h1, h2, h3, h4, h5, h6⟩
      refine ⟨_, _, _, _, _, _, ⟨h1, h2, h3, h4, h5, h6⟩, ?_⟩
      obtain ⟨n, a, b, c, d, e, f, i⟩ := p
      simp only at hn hid
      rw [hn, hid]
  · simp only [List.length_map, List.length_product]
    ring
  · intro h1 h2 h3 h4 h5 h6
    refine List.Nodup.map ?_ (h1.product (h2.product (h3.product (h4.product (h5.product h6)))))
    rintro ⟨a, b, c, d, e, f⟩ ⟨a', b', c', d', e', f'⟩ h
    simp only [DataSetParams.mk.injEq] at h
    obtain ⟨-, rfl, rfl, rfl, rfl, rfl, rfl, -⟩ := h
    rfl

/-- The names and arguments of the generators tell them apart and are free of marks. -/
def ToldApart (l : List GeneratorParams) : Prop :=
  (∀ g ∈ l, Plain g.name ∧ PlainKwargs g.params) ∧
  ∀ g ∈ l, ∀ g' ∈ l, g.name = g'.name → g.params = g'.params → g = g'

/-- **C80 (b).** If moreover generators among the levels are told apart by names and arguments free of
marks, the data sets have pairwise different names. -/
theorem C80_data_names (T : FloatText) (hT : GoodFloats T) (L : DataSetLevels)
    (h1 : L.numPublishers.Nodup) (h2 : L.largest.Nodup) (h3 : L.ratios.Nodup) (h4 : L.pricing.Nodup)
    (h5 : L.impressions.Nodup) (h6 : L.overlaps.Nodup) (t4 : ToldApart L.pricing)
    (t5 : ToldApart L.impressions) (t6 : ToldApart L.overlaps) :
    ((factorialDataDesign L).map (fun p => p.str T)).Nodup := by
  obtain ⟨hm, -, hnd⟩ := C80_data_sets L
  refine List.Nodup.map_on ?_ (hnd h1 h2 h3 h4 h5 h6)
  intro p hp q hq he
  obtain ⟨p1, p2, -, -, -, p6, p7, p8⟩ := (hm p).1 hp
  obtain ⟨q1, q2, -, -, -, q6, q7, q8⟩ := (hm q).1 hq
  have pp : p.PlainNames := ⟨(t4.1 _ p6).1, (t4.1 _ p6).2, (t5.1 _ p7).1, (t5.1 _ p7).2,
    (t6.1 _ p8).1, (t6.1 _ p8).2⟩
  have qp : q.PlainNames := ⟨(t4.1 _ q6).1, (t4.1 _ q6).2, (t5.1 _ q7).1, (t5.1 _ q7).2,
    (t6.1 _ q8).1, (t6.1 _ q8).2⟩
  obtain ⟨e1, e2, e3, e4, e5, e6, e7, e8, e9, e10⟩ :=
    (C70_shown_partial T hT p q p1 q1 pp qp).1 he
  have g4 := t4.2 _ p6 _ q6 e4 e5
  have g5 := t5.2 _ p7 _ q7 e6 e7
  have g6 := t6.2 _ p8 _ q8 e8 e9
  obtain ⟨n, a, b, c, d, e, f, i⟩ := p
  obtain ⟨n', a', b', c', d', e', f', i'⟩ := q
  simp only at p1 q1 e1 e2 e3 e10 g4 g5 g6
  rw [p1, q1, e1, e2, e3, e10, g4, g5, g6]

example : exLevels.numPublishers.Nodup ∧ exLevels.largest.Nodup ∧ exLevels.ratios.Nodup ∧
    exLevels.pricing.Nodup ∧ exLevels.impressions.Nodup ∧ exLevels.overlaps.Nodup ∧
    ToldApart exLevels.overlaps ∧ (factorialDataDesign exLevels).length = 12 := by
  refine ⟨by decide +kernel, by decide +kernel, by decide +kernel, by decide +kernel,
    by decide +kernel, by decide +kernel, ?_, by decide +kernel⟩
  unfold ToldApart PlainKwargs Plain
  decide +kernel

/-- The description of a trial on the data set of a given name. -/
def describe {DS : Type} (T : FloatText) (count : DS → Nat) (dataSet : String → DS)
    (hidden : TrialTemplate DS → String → Int) (t : TrialTemplate DS) : Descriptor :=
  fun name => (String.ofList ((t.update count (dataSet name)).desc.str T), hidden t name)

/-- All combinations of the levels of an experimental design. -/
theorem factorialTrials_eq {DS : Type} (L : TrialLevels DS) (seed : Int) :
    factorialTrials L seed = (L.strategies ×ˢ L.spends ×ˢ L.liquidLegions ×ˢ L.budgets ×ˢ
      L.replicas ×ˢ L.maxFrequencies ×ˢ L.testPoints).map
      (fun t => trialOfLevels seed t.1 t.2.1 t.2.2.1 t.2.2.2.1 t.2.2.2.2.1 t.2.2.2.2.2.1
        t.2.2.2.2.2.2) := by
  unfold factorialTrials
  simp only [SProd.sprod, List.product, List.map_flatMap, List.map_map]
  rfl

/-- Arguments other than `npublishers`, which is overwritten for each data set. -/
def otherArguments (d : Kwargs) : Kwargs := d.filter (fun kv => kv.1 ≠ "npublishers".toList)

/-- The levels can be told apart on a data set by what a description shows. -/
structure TrialLevelsTold {DS : Type} (L : TrialLevels DS) (ds : DS) : Prop where
  strategies : L.strategies.Nodup
  plain : ∀ m ∈ L.strategies, Plain m.strategy ∧ PlainKwargs m.strategyKwargs ∧ Plain m.singlePub ∧
    PlainKwargs m.singlePubKwargs ∧ Plain m.multiPub ∧ PlainKwargs m.multiPubKwargs
  spends : (L.spends.map (fun s => s ds)).Nodup
  liquidLegions : L.liquidLegions.Nodup
  budgets : L.budgets.Nodup
  replicas : L.replicas.Nodup
  maxFrequencies : L.maxFrequencies.Nodup
  testPoints : (L.testPoints.map (fun t => (t.1, otherArguments t.2))).Nodup
  plainPoints : ∀ t ∈ L.testPoints, Plain t.1 ∧ PlainKwargs t.2

theorem otherArguments_fill (n : Nat) (d : Kwargs) :
    otherArguments (fillPublishers n d) = otherArguments d := by
  unfold fillPublishers otherArguments
  generalize "npublishers".toList = k
  induction d with
  | nil => rfl
  | cons kv d ih =>
    rw [List.map_cons]
    by_cases h : kv.1 = k
    · rw [if_pos h, List.filter_cons_of_neg (by simpa using h),
        List.filter_cons_of_neg (by simpa using h), ih]
    · rw [if_neg h, List.filter_cons_of_pos (by simpa using h),
        List.filter_cons_of_pos (by simpa using h), ih]

theorem plain_fill (n : Nat) (d : Kwargs) (h : PlainKwargs d) : PlainKwargs (fillPublishers n d) := by
  intro kv hkv
  unfold fillPublishers at hkv
  obtain ⟨kv', hm, he⟩ := List.mem_map.1 hkv
  by_cases hk : kv'.1 = "npublishers".toList
  · rw [if_pos hk] at he
    rw [← he]
    refine ⟨(h kv' hm).1, ?_⟩
    intro c hc
    exact digit_not_mark (showNat_digits _ c hc)
  · rw [if_neg hk] at he
    rw [← he]; exact h kv' hm

theorem injOn_of_nodup_map {α β : Type} {f : α → β} {l : List α} (h : (l.map f).Nodup) :
    ∀ a ∈ l, ∀ b ∈ l, f a = f b → a = b := by
  intro a ha b hb he
  exact List.inj_on_of_nodup_map h ha hb he

/-- **C80 (c).** If the levels of an experimental design can be told apart on a data set, it has one
trial per combination of levels, and on this data set they are all described differently. -/
theorem C80_descriptions {DS : Type} (T : FloatText) (hT : GoodFloats T) (count : DS → Nat)
    (L : TrialLevels DS) (seed : Int) (ds : DS) (h : TrialLevelsTold L ds) :
    (factorialTrials L seed).length = L.strategies.length * L.spends.length *
      L.liquidLegions.length * L.budgets.length * L.replicas.length * L.maxFrequencies.length *
      L.testPoints.length ∧
    ((factorialTrials L seed).map (fun t => (t.update count ds).desc.str T)).Nodup := by
  rw [factorialTrials_eq]
  refine ⟨by simp only [List.length_map, List.length_product]; ring, ?_⟩
  rw [List.map_map]
  have hnd := h.strategies.product (h.spends.of_map _ |>.product (h.liquidLegions.product
    (h.budgets.product (h.replicas.product (h.maxFrequencies.product (h.testPoints.of_map _))))))
  refine List.Nodup.map_on ?_ hnd
  rintro ⟨m, s, l, b, r, f, t⟩ h1 ⟨m', s', l', b', r', f', t'⟩ h2 he
  simp only [List.mem_product] at h1 h2
  obtain ⟨hm, hs, hl, hb, hr, hf, ht⟩ := h1
  obtain ⟨hm', hs', hl', hb', hr', hf', ht'⟩ := h2
  obtain ⟨c1, c2, c3, c4, c5, c6⟩ := h.plain m hm
  obtain ⟨d1, d2, d3, d4, d5, d6⟩ := h.plain m' hm'
  obtain ⟨c7, c8⟩ := h.plainPoints t ht
  obtain ⟨d7, d8⟩ := h.plainPoints t' ht'
  obtain ⟨e1, e2, e3, e4, e5⟩ := trialDesc_inj T hT _ _
    (⟨c1, c2, c3, c4, c5, c6, c7, plain_fill _ _ c8⟩ :
      TrialDesc.PlainNames ((trialOfLevels seed m s l b r f t).update count ds).desc)
    (⟨d1, d2, d3, d4, d5, d6, d7, plain_fill _ _ d8⟩ :
      TrialDesc.PlainNames ((trialOfLevels seed m' s' l' b' r' f' t').update count ds).desc) he
  simp only [trialOfLevels, TrialTemplate.update] at e1 e2 e3 e4 e5
  simp only [ExperimentParams.mk.injEq] at e5
  obtain ⟨g1, g2, g3, g4, g5⟩ := e5
  have hs2 := injOn_of_nodup_map h.spends s hs s' hs' e2
  have ht2 := injOn_of_nodup_map h.testPoints t ht t' ht' (by
    rw [Prod.mk.injEq]
    refine ⟨g4, ?_⟩
    rw [← otherArguments_fill (count ds) t.2, g5, otherArguments_fill])
  rw [e1, hs2, g1, g2, g3, ht2, Prod.ext e3 e4]

theorem removeDuplicatesFrom_of_nodup : ∀ (all : List TrialConfig) (seen : List String),
    (all.map trialName).Nodup → (∀ t ∈ all, trialName t ∉ seen) →
    removeDuplicatesFrom seen all = all := by
  intro all
  induction all with
  | nil => intro seen _ _; rfl
  | cons t rest ih =>
    intro seen hnd hs
    rw [List.map_cons, List.nodup_cons] at hnd
    rw [removeDuplicatesFrom, if_neg (hs t (by simp)), ih _ hnd.2]
    intro u hu hm
    rcases List.mem_cons.1 hm with h | h
    · exact hnd.1 (h ▸ List.mem_map_of_mem hu)
    · exact hs u (List.mem_cons_of_mem _ hu) h

/-- **C80 (d).** Each data set is evaluated under each combination of levels exactly once: if
the levels can be told apart on each data set and no data set name contains a colon, no trial of the
full factorial design is removed as a duplicate. -/
theorem C80_evaluated {DS : Type} (T : FloatText) (hT : GoodFloats T) (count : DS → Nat)
    (dataSet : String → DS) (hidden : TrialTemplate DS → String → Int) (L : TrialLevels DS)
    (seed : Int) (dir analysisType : String) (names : List String) (hnd : names.Nodup)
    (hcolon : ∀ n ∈ names, ':' ∉ n.toList)
    (h : ∀ n ∈ names, TrialLevelsTold L (dataSet n)) :
    let descs := (factorialTrials L seed).map (describe T count dataSet hidden)
    designTrials dir analysisType descs names =
      names.flatMap (experimentTrials dir analysisType descs) ∧
    (designTrials dir analysisType descs names).length =
      names.length * (L.strategies.length * L.spends.length * L.liquidLegions.length *
        L.budgets.length * L.replicas.length * L.maxFrequencies.length * L.testPoints.length) := by
  intro descs
  have hall : designTrials dir analysisType descs names =
      names.flatMap (experimentTrials dir analysisType descs) := by
    unfold designTrials
    apply removeDuplicatesFrom_of_nodup _ _ _ (by simp)
    rw [List.map_flatMap, List.nodup_flatMap]
    constructor
    · intro n hn
      have := (C80_descriptions T hT count L seed (dataSet n) (h n hn)).2
      have he : (experimentTrials dir analysisType descs n).map trialName =
          ((factorialTrials L seed).map (fun t => (t.update count (dataSet n)).desc.str T)).map
            (fun s => n ++ "::" ++ String.ofList s) := by
        unfold experimentTrials
        simp only [descs, List.map_map]
        rfl
      rw [he]
      refine this.map ?_
      intro a b hab
      have h2 := congrArg String.toList hab
      simp only [String.toList_append, String.toList_ofList] at h2
      exact List.append_cancel_left h2
    · refine hnd.imp_of_mem ?_
      intro a b ha hb hab
      rw [Function.onFun, List.disjoint_left]
      intro x hx hx'
      obtain ⟨t, ht, rfl⟩ := List.mem_map.1 hx
      obtain ⟨u, hu, he⟩ := List.mem_map.1 hx'
      unfold experimentTrials at ht hu
      obtain ⟨d, -, rfl⟩ := List.mem_map.1 ht
      obtain ⟨d', -, rfl⟩ := List.mem_map.1 hu
      have := (trialName_inj (hcolon b hb) (hcolon a ha)).1 he
      unfold trialKey at this
      simp only [Prod.mk.injEq] at this
      exact hab this.1.symm
  refine ⟨hall, ?_⟩
  rw [hall]
  clear hall hnd hcolon
  induction names with
  | nil => simp
  | cons n rest ih =>
    rw [List.flatMap_cons, List.length_append, ih (fun m hm => h m (List.mem_cons_of_mem _ hm))]
    have hl : (experimentTrials dir analysisType descs n).length = (factorialTrials L seed).length := by
      simp [experimentTrials, descs]
    rw [hl, (C80_descriptions T hT count L seed (dataSet n) (h n (by simp))).1, List.length_cons]
    ring

/-- The levels of the first round are told apart on every data set with at least one publisher. -/
theorem m3TrialLevels_told (n : Nat) (hn : 1 ≤ n) : TrialLevelsTold m3TrialLevels n where
  strategies := by decide +kernel
  plain := by unfold PlainKwargs Plain; decide +kernel
  spends := by
    obtain ⟨k, rfl⟩ : ∃ k, n = k + 1 := ⟨n - 1, by omega⟩
    simp only [m3TrialLevels, List.map_cons, List.map_nil, List.nodup_cons, List.mem_singleton,
      List.not_mem_nil, not_false_eq_true, List.nodup_nil, and_true]
    intro h
    rw [List.replicate_succ, List.range_succ_eq_map, List.map_cons, List.cons.injEq] at h
    have := h.1
    revert this
    decide +kernel
  liquidLegions := by decide +kernel
  budgets := by decide +kernel
  replicas := by decide +kernel
  maxFrequencies := by decide +kernel
  testPoints := by decide +kernel
  plainPoints := by unfold PlainKwargs Plain; decide +kernel

/-- **C80 (e).** The first round design evaluates each data set 288 times (the comment at
m3_first_round_experimental_design.py:96 says 192). -/
theorem C80_first_round (T : FloatText) (hT : GoodFloats T) (publishers : String → Nat)
    (hidden : TrialTemplate Nat → String → Int) (seed : Int) (dir analysisType : String)
    (names : List String) (hnd : names.Nodup) (hcolon : ∀ n ∈ names, ':' ∉ n.toList)
    (h : ∀ n ∈ names, 1 ≤ publishers n) :
    (designTrials dir analysisType
      ((factorialTrials m3TrialLevels seed).map (describe T id publishers hidden)) names).length =
      names.length * 288 :=
  (C80_evaluated T hT id publishers hidden m3TrialLevels seed dir analysisType names hnd
    hcolon (fun n hn => m3TrialLevels_told _ (h n hn))).2

example : ["a", "b"].Nodup ∧ (∀ n ∈ ["a", "b"], ':' ∉ n.toList) := by decide +kernel

/-- On a data set without publishers the two spend levels cannot be told apart. -/
example : ¬ TrialLevelsTold m3TrialLevels 0 := by
  intro h
  have := h.spends
  revert this
  decide +kernel

/-! ## C81 -/

theorem independentUniverse_bounds (largest : Int) (ratio : ℚ) (hl : 0 ≤ largest) (h0 : 0 < ratio) :
    (independentUniverse largest ratio : ℚ) ≤ (largest : ℚ) / ratio ∧
    (largest : ℚ) / ratio < (independentUniverse largest ratio : ℚ) + 1 := by
  unfold independentUniverse pyInt
  have : 0 ≤ (largest : ℚ) / ratio := div_nonneg (by exact_mod_cast hl) h0.le
  rw [if_pos this]
  exact ⟨Int.floor_le _, Int.lt_floor_add_one _⟩

/-- **C81 (a).** For a ratio between zero and one, the universe of an independent overlap has the
requested size, rounded down, and every publisher generated for the data set fits into it. -/
theorem C81_fits (T : FloatText) (largest : Int) (o o' : GeneratorParams) (text generator : Text)
    (ratio : ℚ) (hl : 0 ≤ largest) (h0 : 0 < ratio) (h1 : ratio ≤ 1)
    (hname : o.name = "Independent".toList)
    (htext : dictLookup o.params "largest_pub_to_universe_ratio".toList = .ok text)
    (hparse : T.parse text = some ratio)
    (hgen : dictLookup o.params "random_generator".toList = .ok generator)
    (h : m3Overlap T largest o = .ok o') :
    ∃ u : Int, o' = { o with params := [("universe_size".toList, showInt u),
        ("random_generator".toList, generator)] } ∧
      (u : ℚ) ≤ (largest : ℚ) / ratio ∧ (largest : ℚ) / ratio < (u : ℚ) + 1 ∧ largest ≤ u ∧
      ∀ (P : Int) (r : ℝ), 1 ≤ P → 0 < r → r ≤ 1 → ∀ t ∈ publisherSizes P largest r, t ≤ u := by
  unfold m3Overlap at h
  rw [if_pos hname] at h
  simp only [htext, hgen, hparse, bind, Except.bind, if_neg h0.ne'] at h
  cases h
  obtain ⟨b1, b2⟩ := independentUniverse_bounds largest ratio hl h0
  have hlu : largest ≤ independentUniverse largest ratio := by
    have hq : (largest : ℚ) ≤ (largest : ℚ) / ratio := by
      rw [le_div_iff₀ h0]
      have : (0 : ℚ) ≤ largest := by exact_mod_cast hl
      nlinarith
    have : (largest : ℚ) < (independentUniverse largest ratio : ℚ) + 1 := lt_of_le_of_lt hq b2
    have : largest < independentUniverse largest ratio + 1 := by exact_mod_cast this
    omega
  refine ⟨_, rfl, b1, b2, hlu, ?_⟩
  intro P r hP hr0 hr1 t ht
  obtain ⟨-, hhead, hpw, -⟩ := C46_decreasing P largest r hP hl hr0 hr1
  refine le_trans ?_ hlu
  revert hhead hpw ht
  generalize publisherSizes P largest r = l
  intro ht hhead hpw
  cases l with
  | nil => simp at ht
  | cons a l =>
    simp only [List.head?_cons, Option.some.injEq] at hhead
    subst hhead
    rcases List.mem_cons.1 ht with rfl | ht
    · exact le_rfl
    · exact List.rel_of_pairwise_cons hpw ht

/-- **C81 (other overlaps).** Only independent overlaps are changed, and of these only the parameters:
the name, the number of the random generator and every other overlap stay as they were chosen. -/
theorem C81_other (T : FloatText) (largest : Int) (o o' : GeneratorParams)
    (h : m3Overlap T largest o = .ok o') :
    o'.name = o.name ∧ o'.generator = o.generator ∧ (o.name ≠ "Independent".toList → o' = o) := by
  unfold m3Overlap at h
  split at h
  · rename_i hn
    rcases h1 : dictLookup o.params "largest_pub_to_universe_ratio".toList with e | text
    · rw [h1] at h; cases h
    rcases h2 : dictLookup o.params "random_generator".toList with e | generator
    · rw [h1, h2] at h; cases h
    simp only [h1, h2, bind, Except.bind] at h
    split at h
    · cases h
    · split at h
      · cases h
      · cases h
        exact ⟨rfl, rfl, fun hne => absurd hn hne⟩
  · cases h
    exact ⟨rfl, rfl, fun _ => rfl⟩

example : m3Overlap fracText 10000 ⟨"FullOverlap".toList, 2, [("a".toList, "1".toList)]⟩ =
    .ok ⟨"FullOverlap".toList, 2, [("a".toList, "1".toList)]⟩ := by decide +kernel

example : m3Overlap fracText 10000 ⟨"Independent".toList, 3,
      [("largest_pub_to_universe_ratio".toList, "9/10".toList),
        ("random_generator".toList, "1".toList)]⟩ =
    .ok ⟨"Independent".toList, 3, [("universe_size".toList, "11111".toList),
        ("random_generator".toList, "1".toList)]⟩ := by decide +kernel

/-- Overlap patterns of different people out of a universe of `u` people. -/
def FromUniverse (u : Int) (lists : List (List Int)) : Prop :=
  ∀ ids ∈ lists, ∀ i ∈ ids, 0 ≤ i ∧ i < u

/-- **C81 (b, full statement, false).** The data set knows the universe it was drawn from. -/
def C81_kept_full : Prop :=
  ∀ (setOrder : List Int → List Int) (independent : Int → List Nat → List (List Int)) (u : Int)
    (pubs : List PublisherData) (name rnd : String) (ds : DataSet),
    (∀ l : List Int, (setOrder l).Perm l.dedup) →
    Fits (independent u (pubs.map (·.maxReach))) pubs →
    FromUniverse u (independent u (pubs.map (·.maxReach))) →
    independentOverlapDataSet setOrder independent u pubs name rnd = .ok ds → ds.universeSize = u

/-- **C81 (b, partial).** The universe size of the data set is instead twice the number of people
reached by at least one publisher; it agrees with the universe drawn from exactly if one half of it is
reached, and is at most twice as large.  Missing: the requested universe size is not stored. -/
theorem C81_kept_partial (setOrder : List Int → List Int)
    (ho : ∀ l : List Int, (setOrder l).Perm l.dedup)
    (independent : Int → List Nat → List (List Int)) (u : Int) (pubs : List PublisherData)
    (name rnd : String) (hname : name ≠ "")
    (h : Fits (independent u (pubs.map (·.maxReach))) pubs)
    (hu : FromUniverse u (independent u (pubs.map (·.maxReach)))) (hu0 : 0 ≤ u) :
    ∃ ds, independentOverlapDataSet setOrder independent u pubs name rnd = .ok ds ∧
      ds.universeSize =
        2 * (Set.ncard {i | ∃ ids ∈ independent u (pubs.map (·.maxReach)), i ∈ ids} : Int) ∧
      ds.universeSize ≤ 2 * u := by
  obtain ⟨ds, h1, -, -, h4⟩ := C43_data_set setOrder ho (independent u) pubs name rnd h hname
  have hkey : ds.universeSize = 2 * (ds.maximumReach : Int) := by
    unfold overlapDataSet at h1
    rcases hl : labelIds setOrder (independent u (pubs.map (·.maxReach))) pubs rnd with e | qs
    · rw [hl] at h1; cases h1
    · rw [hl] at h1
      simp only [bind, Except.bind, DataSet.new, if_neg hname] at h1
      cases h1
      rfl
  refine ⟨ds, h1, by rw [hkey, h4], ?_⟩
  rw [hkey, h4]
  have hsub : {i | ∃ ids ∈ independent u (pubs.map (·.maxReach)), i ∈ ids} ⊆
      (Finset.Ico (0 : Int) u : Set Int) := by
    rintro i ⟨ids, hids, hi⟩
    rw [Finset.mem_coe, Finset.mem_Ico]
    exact hu ids hids i hi
  have hc := Set.ncard_le_ncard hsub (Finset.finite_toSet _)
  rw [Set.ncard_coe_finset, Int.card_Ico] at hc
  omega

example : FromUniverse 50 [[10, 11], [11, 12]] := by
  unfold FromUniverse; decide

/-- The full statement fails: of 50 people 3 are reached, and the universe size becomes 6. -/
theorem C81_kept_full_is_false : ¬ C81_kept_full := by
  intro h
  have hf : Fits [[10, 11], [11, 12]] exOverlapPubs :=
    .cons [(0, 1), (1, 2), (0, 3)] ⟨"1", "", by decide +kernel⟩ (by decide) (by decide)
      (.cons [(5, 2), (7, 1), (7, 4), (5, 5)] ⟨"2", "", by decide +kernel⟩ (by decide) (by decide)
        .nil)
  obtain ⟨ds, h1, h2, -⟩ := C81_kept_partial List.dedup (fun l => List.Perm.refl _)
    (fun _ _ => [[10, 11], [11, 12]]) 50 exOverlapPubs "x" "" (by decide) hf
    (by unfold FromUniverse; decide) (by decide)
  have h3 := h List.dedup (fun _ _ => [[10, 11], [11, 12]]) 50 exOverlapPubs "x" "" ds
    (fun l => List.Perm.refl _) hf (by unfold FromUniverse; decide) h1
  have h4 : (independentOverlapDataSet List.dedup (fun _ _ => [[10, 11], [11, 12]]) 50 exOverlapPubs
      "x" "").map (fun d => d.universeSize) = .ok 6 := by decide +kernel
  rw [h1] at h4
  have h5 : ds.universeSize = 6 := Except.ok.inj h4
  omega

/-- **C80 (e).** The trials of an experimental design are exactly the combinations of its levels: each
with one strategy, one rule for the campaign spends, one sketch, one budget, one replica, one highest
frequency and one choice of test points, the sketches seeded with 1 and the trial with the seed of the
design. -/
theorem C80_trials {DS : Type} (L : TrialLevels DS) (seed : Int) (t : TrialTemplate DS) :
    t ∈ factorialTrials L seed ↔
      t.desc.strategy ∈ L.strategies ∧ (∃ s ∈ L.spends, t.spendsGenerator = some s) ∧
      (t.desc.system.decayRate, t.desc.system.sketchSize) ∈ L.liquidLegions ∧
      t.desc.system.spends = [] ∧ t.desc.system.randomSeed = 1 ∧
      t.desc.system.generatorSeed = seed ∧ t.desc.experiment.budget ∈ L.budgets ∧
      t.desc.experiment.replicaId ∈ L.replicas ∧
      t.desc.experiment.maxFrequency ∈ L.maxFrequencies ∧
      (t.desc.experiment.testPointStrategy, t.desc.experiment.testPointKwargs) ∈ L.testPoints := by
  rw [factorialTrials_eq]
  simp only [List.mem_map, Prod.exists, List.mem_product]
  constructor
  · rintro ⟨m, s, a, b, c, r, f, x, y, ⟨h1, h2, h3, h4, h5, h6, h7⟩, rfl⟩
    exact ⟨h1, ⟨s, h2, rfl⟩, h3, rfl, rfl, rfl, h4, h5, h6, h7⟩
  · rintro ⟨h1, ⟨s, h2, hs⟩, h3, h4, h5, h6, h7, h8, h9, h10⟩
    refine ⟨_, s, _, _, _, _, _, _, _, ⟨h1, h2, h3, h7, h8, h9, h10⟩, ?_⟩
    obtain ⟨⟨m, ⟨sp, d, k, rs, g⟩, ⟨b, r, f, ts, tk⟩⟩, gen⟩ := t
    simp only at h4 h5 h6 hs
    subst h4 h5 h6 hs
    rfl

/-- The budgets of the first round all have an `epsilon` of at most one and a `delta` of at most one
in ten million, and its test points are drawn for one publisher. -/
theorem C80_first_round_levels (seed : Int) (t : TrialTemplate Nat)
    (h : t ∈ factorialTrials m3TrialLevels seed) :
    (t.desc.experiment.budget.epsilon = 1 ∨ t.desc.experiment.budget.epsilon = 1 / 10) ∧
    (t.desc.experiment.budget.delta = 1 / 10 ^ 7 ∨ t.desc.experiment.budget.delta = 1 / 10 ^ 9) ∧
    t.desc.experiment.testPointKwargs = [("npublishers".toList, "1".toList)] ∧
    t.desc.strategy.multiPub = "restricted_pairwise_union".toList := by
  obtain ⟨h1, -, -, -, -, -, h7, -, -, h10⟩ := (C80_trials _ _ _).1 h
  have a1 : ∀ b ∈ m3TrialLevels.budgets, (b.epsilon = 1 ∨ b.epsilon = 1 / 10) ∧
      (b.delta = 1 / 10 ^ 7 ∨ b.delta = 1 / 10 ^ 9) := by decide +kernel
  have a2 : ∀ x ∈ m3TrialLevels.testPoints, x.2 = [("npublishers".toList, "1".toList)] := by
    decide +kernel
  have a3 : ∀ x ∈ m3TrialLevels.strategies, x.multiPub = "restricted_pairwise_union".toList := by
    decide +kernel
  exact ⟨(a1 _ h7).1, (a1 _ h7).2, a2 _ h10, a3 _ h1⟩

/-- The first round does have trials. -/
example (seed : Int) : (factorialTrials m3TrialLevels seed).length = 288 := by
  rw [factorialTrials_eq]
  simp only [List.length_map, List.length_product]
  rfl

end Verif
