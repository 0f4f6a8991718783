import Verif.Model.TrialRow
import Verif.Props.Aggregator
import Verif.Lemmas.Text

/-!
# C69: the result row of a trial
-/

namespace Verif

/-! ## Specification of the columns -/

/-- Columns describing the trial and its privacy budget. -/
def describingColumns : List String :=
  ["dataset", "trial", "replica_id", "single_pub_model", "multi_pub_model", "strategy",
   "liquid_legions_sketch_size", "liquid_legions_decay_rate", "maximum_reach", "ncampaigns",
   "largest_pub_reach", "max_frequency", "average_spend_fraction",
   "privacy_budget_epsilon", "privacy_budget_delta", "privacy_used_epsilon", "privacy_used_delta",
   "privacy_mechanisms"]

/-- Percentages of the campaign spend at which a single publisher is examined. -/
def percentages : List String :=
  ["010", "020", "030", "040", "050", "060", "070", "080", "090", "100",
   "110", "120", "130", "140", "150", "160", "170", "180", "190", "200",
   "210", "220", "230", "240", "250", "260", "270", "280", "290", "300"]

/-- Columns of the examination of a single publisher. -/
def singleColumns (maxFrequency : Int) : List String :=
  percentages.map ("relative_error_at_" ++ ·) ++
  ((List.range (maxFrequency - 1).toNat).map (· + 1)).flatMap (fun f : Nat =>
    percentages.map (fun p => "freq_" ++ String.ofList (showNat f) ++ "_relative_error_at_" ++ p)) ++
  ["max_nonzero_frequency_from_halo", "max_nonzero_frequency_from_data"]

/-- All columns of a trial. -/
def trialColumns (analysisType : String) (maxFrequency : Int) : List String :=
  describingColumns ++ resultColumns ++
    (if analysisType = "single_pub" then singleColumns maxFrequency else [])

/-! ## Lemmas -/

theorem mapM_named {α : Type} (name : α → String) (cell : α → Except PyErr Cell) (l : List α)
    (out : Row) (h : l.mapM (fun r => do return (name r, ← cell r)) = .ok out) :
    out.map (·.1) = l.map name ∧ ∀ r ∈ l, ∃ c, cell r = .ok c ∧ (name r, c) ∈ out := by
  rw [mapM_ok_iff] at h
  replace h : List.Forall₂ (fun a (b : String × Cell) => b.1 = name a ∧ cell a = .ok b.2) l out := by
    refine h.imp ?_
    intro a b hab
    rcases hc : cell a with e | c
    · rw [hc] at hab; cases hab
    · rw [hc] at hab; cases hab; exact ⟨rfl, rfl⟩
  induction h with
  | nil => simp
  | cons hab _ ih =>
    obtain ⟨ih1, ih2⟩ := ih
    refine ⟨by simp [hab.1, ih1], ?_⟩
    intro r hr
    rcases List.mem_cons.1 hr with rfl | hr
    · exact ⟨_, hab.2, by rw [← hab.1]; simp⟩
    · obtain ⟨c, hc1, hc2⟩ := ih2 r hr
      exact ⟨c, hc1, by simp [hc2]⟩

theorem fractionLabels : singlePublisherFractions.map fractionLabel = percentages := by
  decide +kernel

/-- What a successful single publisher row consists of. -/
theorem singlePublisherRow_parts (inp : TrialInputs) (s : Surface) (row : Row)
    (h : singlePublisherRow inp s = .ok row) :
    row.map (·.1) = singleColumns inp.maxFrequency ∧
    (∀ r ∈ singlePublisherFractions, ∃ c, fractionCell inp s 1 r = .ok c ∧ (reachColumn r, c) ∈ row) ∧
    (∀ f ∈ frequencyRange inp.maxFrequency, ∀ r ∈ singlePublisherFractions,
      ∃ c, fractionCell inp s f r = .ok c ∧ (frequencyColumn f r, c) ∈ row) ∧
    (∃ data p c, s.data = .ok data ∧ pyIndex data 0 = .ok p ∧ maxNonzeroFrequency p = .ok c ∧
      ("max_nonzero_frequency_from_halo", c) ∈ row) ∧
    (∃ p c, inp.trueReach inp.campaignSpends inp.maxFrequency = .ok p ∧
      maxNonzeroFrequency p = .ok c ∧ ("max_nonzero_frequency_from_data", c) ∈ row) := by
  unfold singlePublisherRow at h
  rcases ha : reachCells inp s with e | a
  · simp only [ha, bind, Except.bind] at h; cases h
  rcases hb : frequencyCells inp s with e | b
  · simp only [ha, hb, bind, Except.bind] at h; cases h
  rcases hdat : s.data with e | data
  · simp only [ha, hb, hdat, bind, Except.bind] at h; cases h
  rcases hp : pyIndex data 0 with e | p
  · simp only [ha, hb, hdat, hp, bind, Except.bind] at h; cases h
  rcases hc : maxNonzeroFrequency p with e | c
  · simp only [ha, hb, hdat, hp, hc, bind, Except.bind] at h; cases h
  rcases hq : inp.trueReach inp.campaignSpends inp.maxFrequency with e | q
  · simp only [ha, hb, hdat, hp, hc, hq, bind, Except.bind] at h; cases h
  rcases hd : maxNonzeroFrequency q with e | d
  · simp only [ha, hb, hdat, hp, hc, hq, hd, bind, Except.bind] at h; cases h
  simp only [ha, hb, hdat, hp, hc, hq, hd, bind, Except.bind, pure, Except.pure, Except.ok.injEq] at h
  subst h
  obtain ⟨ha1, ha2⟩ := mapM_named _ _ _ _ ha
  unfold frequencyCells at hb
  rw [mapM_ok_iff] at hb
  have hb' : List.Forall₂ (fun f (l : Row) =>
      l.map (·.1) = singlePublisherFractions.map (frequencyColumn f) ∧
      ∀ r ∈ singlePublisherFractions, ∃ c, fractionCell inp s f r = .ok c ∧
        (frequencyColumn f r, c) ∈ l) (frequencyRange inp.maxFrequency) b :=
    hb.imp (fun f l hl => mapM_named _ _ _ _ hl)
  have hb1 : b.flatten.map (·.1) = (frequencyRange inp.maxFrequency).flatMap
      (fun f => singlePublisherFractions.map (frequencyColumn f)) := by
    clear hb
    generalize frequencyRange inp.maxFrequency = fr at hb'
    induction hb' with
    | nil => rfl
    | cons h _ ih => rw [List.flatten_cons, List.map_append, List.flatMap_cons, h.1, ih]
  have hb2 : ∀ f ∈ frequencyRange inp.maxFrequency, ∀ r ∈ singlePublisherFractions,
      ∃ c, fractionCell inp s f r = .ok c ∧ (frequencyColumn f r, c) ∈ b.flatten := by
    clear hb hb1
    generalize frequencyRange inp.maxFrequency = fr at hb'
    induction hb' with
    | nil => intro f hf; simp at hf
    | cons h _ ih =>
      intro f hf r hr
      rcases List.mem_cons.1 hf with rfl | hf
      · obtain ⟨c, h1, h2⟩ := h.2 r hr
        exact ⟨c, h1, by simp [h2]⟩
      · obtain ⟨c, h1, h2⟩ := ih f hf r hr
        exact ⟨c, h1, by rw [List.flatten_cons]; exact List.mem_append_right _ h2⟩
  refine ⟨?_, ?_, ?_, ⟨data, p, c, rfl, hp, hc, by simp⟩, ⟨q, d, rfl, hd, by simp⟩⟩
  · rw [List.map_append, List.map_append, ha1, hb1]
    unfold singleColumns
    rw [← fractionLabels]
    simp only [List.map_map]
    rfl
  · intro r hr
    obtain ⟨c, h1, h2⟩ := ha2 r hr
    exact ⟨c, h1, by simp [h2]⟩
  · intro f hf r hr
    obtain ⟨c, h1, h2⟩ := hb2 f hf r hr
    exact ⟨c, h1, List.mem_append_left _ (List.mem_append_right _ h2)⟩

theorem singlePublisherRowOnException_columns (m : Int) :
    (singlePublisherRowOnException m).map (·.1) = singleColumns m ∧
    ∀ x ∈ singlePublisherRowOnException m, x.2 = .float none := by
  constructor
  · unfold singlePublisherRowOnException singleColumns
    rw [← fractionLabels]
    simp only [List.map_append, List.map_map, List.map_flatten]
    rfl
  · intro x hx
    unfold singlePublisherRowOnException at hx
    simp only [List.mem_append, List.mem_map, List.mem_flatten, List.mem_cons, List.not_mem_nil,
      or_false] at hx
    rcases hx with (⟨r, _, rfl⟩ | ⟨l, ⟨f, _, rfl⟩, hx⟩) | rfl | rfl
    · rfl
    · obtain ⟨r, _, rfl⟩ := List.mem_map.1 hx; rfl
    · rfl
    · rfl

theorem independentVars_ok (inp : TrialInputs) :
    (∃ row, independentVars inp = .ok row) ↔ inp.publisherReaches ≠ [] := by
  unfold independentVars
  rcases h : inp.publisherReaches with _ | ⟨x, xs⟩
  · simp [pyMaxInt, bind, Except.bind]
  · simp [pyMaxInt, bind, Except.bind, pure, Except.pure]

theorem vars_columns (inp : TrialInputs) (vars : Row) (h : independentVars inp = .ok vars) :
    (vars ++ privacyVars inp).map (·.1) = describingColumns := by
  unfold independentVars at h
  rcases hm : pyMaxInt inp.publisherReaches with e | m
  · rw [hm] at h; cases h
  · rw [hm] at h; cases h; rfl

theorem trialAttempt_parts (inp : TrialInputs) (x : Row × Row) (h : trialAttempt inp = .ok x) :
    ∃ surface points trueReach fitted, inp.fit = .ok surface ∧ inp.testPoints = .ok points ∧
      points.mapM (fun t => inp.trueReach t inp.maxFrequency) = .ok trueReach ∧
      points.mapM (fun t => surface.bySpend t inp.maxFrequency) = .ok fitted ∧
      aggregate trueReach fitted = .ok x.1 ∧
      (if inp.analysisType = "single_pub" then singlePublisherRow inp surface = .ok x.2
        else x.2 = []) := by
  unfold trialAttempt at h
  rcases h1 : inp.fit with e | surface
  · simp only [h1, bind, Except.bind] at h; cases h
  rcases h2 : inp.testPoints with e | points
  · simp only [h1, h2, bind, Except.bind] at h; cases h
  rcases h3 : points.mapM (fun t => inp.trueReach t inp.maxFrequency) with e | tr
  · simp only [h1, h2, h3, bind, Except.bind] at h; cases h
  rcases h4 : points.mapM (fun t => surface.bySpend t inp.maxFrequency) with e | fi
  · simp only [h1, h2, h3, h4, bind, Except.bind] at h; cases h
  rcases h5 : aggregate tr fi with e | m
  · simp only [h1, h2, h3, h4, h5, bind, Except.bind] at h; cases h
  simp only [h1, h2, h3, h4, h5, bind, Except.bind, pure, Except.pure] at h
  refine ⟨surface, points, tr, fi, rfl, rfl, h3, h4, ?_⟩
  by_cases ht : inp.analysisType = "single_pub"
  · rw [if_pos ht] at h
    rcases h6 : singlePublisherRow inp surface with e | sp
    · rw [h6] at h; cases h
    · rw [h6] at h; cases h
      exact ⟨h5, by rw [if_pos ht]⟩
  · rw [if_neg ht] at h
    cases h
    exact ⟨h5, by rw [if_neg ht]⟩

theorem trialRow_ok (inp : TrialInputs) (row : Row) (h : trialRow inp = .ok row) :
    ∃ vars, independentVars inp = .ok vars ∧
      ((∃ x, trialAttempt inp = .ok x ∧ row = vars ++ privacyVars inp ++ x.1 ++ x.2) ∨
       ∃ e, trialAttempt inp = .error e ∧
        row = vars ++ privacyVars inp ++ (trialFailure inp e).1 ++ (trialFailure inp e).2) := by
  unfold trialRow at h
  rcases hv : independentVars inp with e | vars
  · simp only [hv, bind, Except.bind] at h; cases h
  · simp only [hv, bind, Except.bind, pure, Except.pure, Except.ok.injEq] at h
    refine ⟨vars, rfl, ?_⟩
    rcases ha : trialAttempt inp with e | x
    · rw [ha] at h; exact Or.inr ⟨e, rfl, h.symm⟩
    · rw [ha] at h; exact Or.inl ⟨x, rfl, h.symm⟩

theorem showNat_inj {m n : Nat} (h : showNat m = showNat n) : m = n := by
  rw [← showNat_value m, h, showNat_value n]

theorem noUnderscore_showNat (n : Nat) : '_' ∉ showNat n := by
  intro h
  have := showNat_digits n '_' h
  revert this
  decide

theorem foldl_max_spec (l : List Int) : ∀ x : Int,
    (l.foldl max x = x ∨ l.foldl max x ∈ l) ∧ x ≤ l.foldl max x ∧ ∀ y ∈ l, y ≤ l.foldl max x := by
  induction l with
  | nil => intro x; simp
  | cons a l ih =>
    intro x
    obtain ⟨h1, h2, h3⟩ := ih (max x a)
    rw [List.foldl_cons]
    refine ⟨?_, le_trans (le_max_left _ _) h2, ?_⟩
    · rcases h1 with h | h
      · rw [h]
        rcases max_choice x a with h' | h' <;> rw [h'] <;> simp
      · exact Or.inr (by simp [h])
    · intro y hy
      rcases List.mem_cons.1 hy with rfl | hy
      · exact le_trans (le_max_right _ _) h2
      · exact h3 y hy

/-! ## Theorems -/

/-- C69: every row of a trial has the same columns in the same order, depending only on analysis type
and maximum frequency, whether modelling succeeded or failed. -/
theorem C69_columns (inp : TrialInputs) (row : Row) (h : trialRow inp = .ok row) :
    row.map (·.1) = trialColumns inp.analysisType inp.maxFrequency := by
  obtain ⟨vars, hv, hrow⟩ := trialRow_ok inp row h
  have hd := vars_columns inp vars hv
  unfold trialColumns
  rcases hrow with ⟨x, hx, rfl⟩ | ⟨e, he, rfl⟩
  · obtain ⟨s, ps, tr, fi, -, -, -, -, h5, h6⟩ := trialAttempt_parts inp x hx
    rw [List.map_append, List.map_append, hd, (C47_columns.2.1 _ _ _ h5).1]
    congr 1
    by_cases ht : inp.analysisType = "single_pub"
    · rw [if_pos ht] at h6 ⊢
      exact (singlePublisherRow_parts inp s _ h6).1
    · rw [if_neg ht] at h6 ⊢
      rw [h6]; rfl
  · have hm : (trialFailure inp e).1.map (·.1) = resultColumns := (C47_columns.2.2 _).1
    rw [List.map_append, List.map_append, hd, hm]
    congr 1
    · unfold trialFailure
      simp only
      split
      · exact (singlePublisherRowOnException_columns _).1
      · rfl

/-- C69: no column name occurs twice. -/
theorem C69_columns_distinct (analysisType : String) (maxFrequency : Int) :
    (trialColumns analysisType maxFrequency).Nodup := by
  have hfreq : (((List.range (maxFrequency - 1).toNat).map (· + 1)).flatMap (fun f : Nat => percentages.map (fun p =>
      "freq_" ++ String.ofList (showNat f) ++ "_relative_error_at_" ++ p))).Nodup := by
    have hinj : ∀ f p f' p', ("freq_" ++ String.ofList (showNat f) ++ "_relative_error_at_" ++ p) =
        ("freq_" ++ String.ofList (showNat f') ++ "_relative_error_at_" ++ p') → f = f' ∧ p = p' := by
      intro f p f' p' h
      have h1 := congrArg String.toList h
      simp only [String.toList_append, String.toList_ofList, List.append_assoc] at h1
      have h2 := List.append_cancel_left h1
      have h3 : "_relative_error_at_".toList = '_' :: "relative_error_at_".toList := by decide
      rw [h3] at h2
      simp only [List.cons_append] at h2
      obtain ⟨h4, h5⟩ := append_sep_inj (noUnderscore_showNat f) (noUnderscore_showNat f') h2
      exact ⟨showNat_inj h4, String.toList_injective (List.append_cancel_left h5)⟩
    rw [List.nodup_flatMap]
    constructor
    · intro f _
      refine List.Nodup.map (fun p p' h => (hinj f p f p' h).2) (by decide +kernel)
    · have hnd : ((List.range (maxFrequency - 1).toNat).map (· + 1)).Nodup :=
        List.Nodup.map (fun a b h => by simpa using h) List.nodup_range
      refine hnd.imp ?_
      intro f f' hne x hx hx'
      obtain ⟨p, _, rfl⟩ := List.mem_map.1 hx
      obtain ⟨p', _, he⟩ := List.mem_map.1 hx'
      exact hne (hinj f' p' f p he).1.symm
  have hstart : ∀ x ∈ ((List.range (maxFrequency - 1).toNat).map (· + 1)).flatMap (fun f : Nat => percentages.map (fun p =>
      "freq_" ++ String.ofList (showNat f) ++ "_relative_error_at_" ++ p)),
      x.toList.take 5 = "freq_".toList := by
    intro x hx
    obtain ⟨f, _, hx⟩ := List.mem_flatMap.1 hx
    obtain ⟨p, _, rfl⟩ := List.mem_map.1 hx
    simp only [String.toList_append, List.append_assoc]
    rw [List.take_append_of_le_length (by decide)]
    decide
  unfold trialColumns
  split
  · have hfix : (describingColumns ++ resultColumns ++ percentages.map ("relative_error_at_" ++ ·) ++
        ["max_nonzero_frequency_from_halo", "max_nonzero_frequency_from_data"]).Nodup := by
      decide +kernel
    have hfix2 : ∀ x ∈ describingColumns ++ resultColumns ++
        percentages.map ("relative_error_at_" ++ ·) ++
        ["max_nonzero_frequency_from_halo", "max_nonzero_frequency_from_data"],
        x.toList.take 5 ≠ "freq_".toList := by decide +kernel
    unfold singleColumns
    generalize ((List.range (maxFrequency - 1).toNat).map (· + 1)).flatMap _ = F at *
    have hperm : (describingColumns ++ resultColumns ++
        (percentages.map ("relative_error_at_" ++ ·) ++ F ++
          ["max_nonzero_frequency_from_halo", "max_nonzero_frequency_from_data"])).Perm
        ((describingColumns ++ resultColumns ++ percentages.map ("relative_error_at_" ++ ·) ++
          ["max_nonzero_frequency_from_halo", "max_nonzero_frequency_from_data"]) ++ F) := by
      simp only [List.append_assoc]
      exact List.Perm.append_left _ (List.Perm.append_left _ (List.Perm.append_left _
        List.perm_append_comm))
    rw [hperm.nodup_iff, List.nodup_append]
    refine ⟨hfix, hfreq, ?_⟩
    rintro a ha b hb rfl
    exact hfix2 a ha (hstart a hb)
  · decide +kernel

/-- C69: a trial returns a row exactly if its data set has a publisher: no exception in fitting,
test points, true or predicted reaches or statistics escapes. -/
theorem C69_returns (inp : TrialInputs) :
    (∃ row, trialRow inp = .ok row) ↔ inp.publisherReaches ≠ [] := by
  rw [← independentVars_ok]
  constructor
  · rintro ⟨row, h⟩
    obtain ⟨vars, hv, _⟩ := trialRow_ok inp row h
    exact ⟨vars, hv⟩
  · rintro ⟨vars, hv⟩
    unfold trialRow
    simp only [hv, bind, Except.bind, pure, Except.pure]
    exact ⟨_, rfl⟩

/-- The value of a column. -/
def HasCell (row : Row) (column : String) (c : Cell) : Prop := (column, c) ∈ row

theorem hasCell_unique {inp : TrialInputs} {row : Row} (h : trialRow inp = .ok row)
    {column : String} {c d : Cell} (hc : HasCell row column c) (hd : HasCell row column d) :
    c = d := by
  have hnd := C69_columns_distinct inp.analysisType inp.maxFrequency
  rw [← C69_columns inp row h] at hnd
  have := List.inj_on_of_nodup_map hnd hc hd rfl
  exact congrArg Prod.snd this

/-- C69: `model_succeeded` is 1 or 0.  It is 1 exactly if fitting, test points, true and predicted
reaches, statistics and (for single publishers) the examination all went through; then the
statistics are those of the test points. -/
theorem C69_success (inp : TrialInputs) (row : Row) (h : trialRow inp = .ok row) :
    (HasCell row "model_succeeded" (.int 1) ∨ HasCell row "model_succeeded" (.int 0)) ∧
    (HasCell row "model_succeeded" (.int 1) ↔
      ∃ surface points trueReach fitted stats, inp.fit = .ok surface ∧ inp.testPoints = .ok points ∧
        List.Forall₂ (fun t r => inp.trueReach t inp.maxFrequency = .ok r) points trueReach ∧
        List.Forall₂ (fun t r => surface.bySpend t inp.maxFrequency = .ok r) points fitted ∧
        aggregate trueReach fitted = .ok stats ∧ (∀ x ∈ stats, x ∈ row) ∧
        (inp.analysisType = "single_pub" → ∃ single, singlePublisherRow inp surface = .ok single ∧
          ∀ x ∈ single, x ∈ row)) := by
  obtain ⟨vars, hv, hrow⟩ := trialRow_ok inp row h
  rcases hrow with ⟨x, hx, he⟩ | ⟨e, he, hr⟩
  · obtain ⟨s, ps, tr, fi, h1, h2, h3, h4, h5, h6⟩ := trialAttempt_parts inp x hx
    have hin : HasCell row "model_succeeded" (.int 1) := by
      rw [he]
      exact List.mem_append_left _ (List.mem_append_right _ (C47_columns.2.1 _ _ _ h5).2.1)
    refine ⟨Or.inl hin, ⟨fun _ => ?_, fun _ => hin⟩⟩
    refine ⟨s, ps, tr, fi, x.1, h1, h2, (mapM_ok_iff _ _ _).1 h3, (mapM_ok_iff _ _ _).1 h4, h5, ?_, ?_⟩
    · intro y hy
      rw [he]
      exact List.mem_append_left _ (List.mem_append_right _ hy)
    · intro ht
      rw [if_pos ht] at h6
      refine ⟨x.2, h6, ?_⟩
      intro y hy
      rw [he]
      exact List.mem_append_right _ hy
  · have hin : HasCell row "model_succeeded" (.int 0) := by
      rw [hr]
      exact List.mem_append_left _ (List.mem_append_right _ (C47_columns.2.2 _).2.1)
    refine ⟨Or.inr hin, ⟨?_, ?_⟩⟩
    · intro h1
      have := hasCell_unique h hin h1
      simp at this
    · rintro ⟨s, ps, tr, fi, st, h1, h2, h3, h4, h5, -, h6⟩
      exfalso
      rw [← mapM_ok_iff] at h3 h4
      unfold trialAttempt at he
      simp only [h1, h2, h3, h4, h5, bind, Except.bind, pure, Except.pure] at he
      by_cases ht : inp.analysisType = "single_pub"
      · obtain ⟨sg, hs, _⟩ := h6 ht
        rw [if_pos ht, hs] at he
        cases he
      · rw [if_neg ht] at he
        cases he

/-- C69: after a failure every statistic and every single publisher column is NaN, and the message
is the traceback. -/
theorem C69_failure (inp : TrialInputs) (row : Row) (h : trialRow inp = .ok row)
    (hf : HasCell row "model_succeeded" (.int 0)) :
    (∃ e, HasCell row "model_exception" (.text (inp.traceback e))) ∧
    ∀ c ∈ (trialColumns inp.analysisType inp.maxFrequency).drop 20, HasCell row c (.float none) := by
  obtain ⟨vars, hv, hrow⟩ := trialRow_ok inp row h
  rcases hrow with ⟨x, hx, he⟩ | ⟨e, he, hr⟩
  · obtain ⟨s, ps, tr, fi, h1, h2, h3, h4, h5, h6⟩ := trialAttempt_parts inp x hx
    have hin : HasCell row "model_succeeded" (.int 1) := by
      rw [he]
      exact List.mem_append_left _ (List.mem_append_right _ (C47_columns.2.1 _ _ _ h5).2.1)
    have := hasCell_unique h hin hf
    simp at this
  · obtain ⟨-, -, hc3, hc4⟩ := C47_columns.2.2 (inp.traceback e)
    refine ⟨⟨e, ?_⟩, ?_⟩
    · rw [hr]
      exact List.mem_append_left _ (List.mem_append_right _ hc3)
    · intro c hc
      have hdrop : (trialColumns inp.analysisType inp.maxFrequency).drop 20 =
          resultColumns.drop 2 ++
            (if inp.analysisType = "single_pub" then singleColumns inp.maxFrequency else []) := by
        unfold trialColumns describingColumns resultColumns
        rfl
      rw [hdrop] at hc
      rcases List.mem_append.1 hc with hc | hc
      · rw [hr]
        exact List.mem_append_left _ (List.mem_append_right _ (hc4 c hc))
      · by_cases ht : inp.analysisType = "single_pub"
        · rw [if_pos ht] at hc
          obtain ⟨h1, h2⟩ := singlePublisherRowOnException_columns inp.maxFrequency
          rw [← h1] at hc
          obtain ⟨y, hy, rfl⟩ := List.mem_map.1 hc
          have hy2 := h2 y hy
          rw [hr]
          refine List.mem_append_right _ ?_
          unfold trialFailure
          rw [if_pos ht, ← hy2]
          exact hy
        · rw [if_neg ht] at hc
          simp at hc

theorem fractionCell_ok (inp : TrialInputs) (s : Surface) (f r : Nat) (c : Cell)
    (h : fractionCell inp s f r = .ok c) :
    ∃ spend t tk p pk, inp.campaignSpends.head? = some spend ∧
      inp.trueReach [spend * ((r : ℚ) / 10)] f = .ok t ∧ t.reach f = .ok tk ∧
      s.bySpend [spend * ((r : ℚ) / 10)] f = .ok p ∧ p.reach f = .ok pk ∧
      c = if tk = 0 then .float none else .float (some (|tk - pk| / |tk|)) := by
  unfold fractionCell at h
  rcases hs : pyIndex inp.campaignSpends 0 with e | sp
  · simp only [hs, bind, Except.bind] at h; cases h
  rcases ht : inp.trueReach [sp * ((r : ℚ) / 10)] f with e | t
  · simp only [hs, ht, bind, Except.bind] at h; cases h
  rcases htk : t.reach f with e | tk
  · simp only [hs, ht, htk, bind, Except.bind] at h; cases h
  rcases hp : s.bySpend [sp * ((r : ℚ) / 10)] f with e | p
  · simp only [hs, ht, htk, hp, bind, Except.bind] at h; cases h
  rcases hpk : p.reach f with e | pk
  · simp only [hs, ht, htk, hp, hpk, bind, Except.bind] at h; cases h
  simp only [hs, ht, htk, hp, hpk, bind, Except.bind, pure, Except.pure, Except.ok.injEq] at h
  refine ⟨sp, t, tk, p, pk, ?_, ht, htk, hp, hpk, ?_⟩
  · rcases hc : inp.campaignSpends with _ | ⟨x, xs⟩
    · rw [hc] at hs; simp [pyIndex] at hs
    · rw [hc] at hs; simp [pyIndex] at hs; simp [hs]
  · rw [← h]
    unfold relativeErrorCell
    by_cases h0 : tk = 0
    · simp [h0]
    · simp [h0, abs_div]

/-- C69: the describing columns of a row: names, numbers of the configuration, number of publishers,
greatest publisher reach, mean spend fraction, budget and consumption, and each privacy mechanism
once in alphabetical order. -/
theorem C69_describing (inp : TrialInputs) (row : Row) (h : trialRow inp = .ok row) :
    HasCell row "dataset" (.text inp.dataSetName) ∧
    HasCell row "trial" (.text inp.descriptor) ∧
    HasCell row "replica_id" (.int inp.replicaId) ∧
    HasCell row "single_pub_model" (.text inp.singlePubModel) ∧
    HasCell row "multi_pub_model" (.text inp.multiPubModel) ∧
    HasCell row "strategy" (.text inp.strategy) ∧
    HasCell row "liquid_legions_sketch_size" (.float (some inp.sketchSize)) ∧
    HasCell row "liquid_legions_decay_rate" (.float (some inp.decayRate)) ∧
    HasCell row "maximum_reach" (.int inp.maximumReach) ∧
    HasCell row "ncampaigns" (.int inp.publisherReaches.length) ∧
    (∃ m ∈ inp.publisherReaches, (∀ x ∈ inp.publisherReaches, x ≤ m) ∧
      HasCell row "largest_pub_reach" (.int m)) ∧
    HasCell row "max_frequency" (.int inp.maxFrequency) ∧
    (inp.spendFractions ≠ [] → HasCell row "average_spend_fraction"
      (.float (some (inp.spendFractions.sum / inp.spendFractions.length)))) ∧
    HasCell row "privacy_budget_epsilon" (.float (some inp.budget.epsilon)) ∧
    HasCell row "privacy_budget_delta" (.float (some inp.budget.delta)) ∧
    HasCell row "privacy_used_epsilon" (.float (some inp.tracker.privacyConsumption.epsilon)) ∧
    HasCell row "privacy_used_delta" (.float (some inp.tracker.privacyConsumption.delta)) ∧
    (∃ ms : List String, HasCell row "privacy_mechanisms" (.text (String.intercalate "/" ms)) ∧
      ms.Nodup ∧ ms.Pairwise (· ≤ ·) ∧
      ∀ x, x ∈ ms ↔ ∃ e ∈ inp.tracker.noisingEvents, e.mechanism = x) := by
  obtain ⟨vars, hv, hrow⟩ := trialRow_ok inp row h
  have hin : ∀ x ∈ vars ++ privacyVars inp, x ∈ row := by
    intro x hx
    rcases hrow with ⟨y, -, he⟩ | ⟨e, -, he⟩ <;>
    · rw [he]
      exact List.mem_append_left _ (List.mem_append_left _ hx)
  have hp : ∀ x ∈ privacyVars inp, x ∈ row := fun x hx => hin x (List.mem_append_right _ hx)
  unfold independentVars at hv
  rcases hl : inp.publisherReaches with _ | ⟨y, ys⟩
  · rw [hl] at hv; cases hv
  obtain ⟨g1, g2, g3⟩ := foldl_max_spec ys y
  have hmax : pyMaxInt inp.publisherReaches = .ok (ys.foldl max y) := by rw [hl]; rfl
  rw [hmax] at hv
  cases hv
  have hi : ∀ x, x ∈ _ → x ∈ row := fun x hx => hin x (List.mem_append_left _ hx)
  refine ⟨hi _ (by simp), hi _ (by simp), hi _ (by simp), hi _ (by simp), hi _ (by simp),
    hi _ (by simp), hi _ (by simp), hi _ (by simp), hi _ (by simp), hi _ (by simp [hl]),
    ⟨ys.foldl max y, ?_, ?_, hi _ (by simp)⟩, hi _ (by simp), ?_, hp _ (by simp [privacyVars]),
    hp _ (by simp [privacyVars]), hp _ (by simp [privacyVars]), hp _ (by simp [privacyVars]),
    ⟨sortStrings (inp.tracker.noisingEvents.map (·.mechanism)).dedup, hp _ (by simp [privacyVars]),
      ?_, ?_, ?_⟩⟩
  · rcases g1 with h | h
    · rw [h]; simp
    · simp [h]
  · intro x hx
    rcases List.mem_cons.1 hx with rfl | hx
    · exact g2
    · exact g3 x hx
  · intro hne
    apply hi
    have hmean : npMean (inp.spendFractions.map some) =
        some (inp.spendFractions.sum / inp.spendFractions.length) := by
      have hall : ∀ l : List ℚ, allFinite (l.map some) = some l := by
        intro l
        induction l with
        | nil => rfl
        | cons a l ih => simp [allFinite, ih]
      unfold npMean
      rw [hall]
      simp [hne, meanOf]
    rw [← hmean]
    simp
  · unfold sortStrings
    rw [(List.perm_insertionSort _ _).nodup_iff]
    exact List.nodup_dedup _
  · exact List.pairwise_insertionSort (· ≤ ·) _
  · intro x
    unfold sortStrings
    rw [(List.perm_insertionSort _ _).mem_iff, List.mem_dedup, List.mem_map]

/-- C69: in a successful single publisher trial, the column for `10 * r` percent (and frequency `f`)
holds the relative error of the predicted `f`+ reach at that share of the campaign spend of the first
publisher, or NaN if the true reach is zero. -/
theorem C69_single_values (inp : TrialInputs) (row : Row) (h : trialRow inp = .ok row)
    (ht : inp.analysisType = "single_pub") (hs : HasCell row "model_succeeded" (.int 1)) :
    ∃ surface, inp.fit = .ok surface ∧ ∀ r : Nat, 1 ≤ r → r ≤ 30 → ∀ f : Nat, 1 ≤ f →
      ((f : Int) < inp.maxFrequency ∨ f = 1) →
      ∃ spend t tk p pk, inp.campaignSpends.head? = some spend ∧
        inp.trueReach [spend * ((r : ℚ) / 10)] f = .ok t ∧ t.reach f = .ok tk ∧
        surface.bySpend [spend * ((r : ℚ) / 10)] f = .ok p ∧ p.reach f = .ok pk ∧
        (f = 1 → HasCell row ("relative_error_at_" ++ percentages.getD (r - 1) "")
          (if tk = 0 then .float none else .float (some (|tk - pk| / |tk|)))) ∧
        ((f : Int) < inp.maxFrequency → HasCell row ("freq_" ++ String.ofList (showNat f) ++
          "_relative_error_at_" ++ percentages.getD (r - 1) "")
          (if tk = 0 then .float none else .float (some (|tk - pk| / |tk|)))) := by
  obtain ⟨surface, points, tr, fi, stats, h1, -, -, -, -, -, h7⟩ := (C69_success inp row h).2.1 hs
  obtain ⟨single, hsp, hsub⟩ := h7 ht
  obtain ⟨-, hA, hB, -, -⟩ := singlePublisherRow_parts inp surface single hsp
  refine ⟨surface, h1, ?_⟩
  intro r hr1 hr2 f hf1 hf2
  have hr : r ∈ singlePublisherFractions := by
    unfold singlePublisherFractions
    exact List.mem_map.2 ⟨r - 1, List.mem_range.2 (by omega), by omega⟩
  have hlab : fractionLabel r = percentages.getD (r - 1) "" := by
    have hall : ∀ i : Fin 30, fractionLabel (i.val + 1) = percentages.getD i.val "" := by
      decide +kernel
    have := hall ⟨r - 1, by omega⟩
    simp only at this
    rwa [show r - 1 + 1 = r by omega] at this
  have hmem : (f : Int) < inp.maxFrequency → f ∈ frequencyRange inp.maxFrequency := by
    intro hlt
    unfold frequencyRange
    exact List.mem_map.2 ⟨f - 1, List.mem_range.2 (by omega), by omega⟩
  have hcell : ∃ c, fractionCell inp surface f r = .ok c ∧
      (f = 1 → (reachColumn r, c) ∈ single) ∧
      ((f : Int) < inp.maxFrequency → (frequencyColumn f r, c) ∈ single) := by
    by_cases hlt : (f : Int) < inp.maxFrequency
    · obtain ⟨c, hc1, hc2⟩ := hB f (hmem hlt) r hr
      refine ⟨c, hc1, ?_, fun _ => hc2⟩
      intro hf
      subst hf
      obtain ⟨c', hc1', hc2'⟩ := hA r hr
      rw [hc1] at hc1'
      cases hc1'
      exact hc2'
    · have hf : f = 1 := hf2.resolve_left hlt
      subst hf
      obtain ⟨c', hc1', hc2'⟩ := hA r hr
      exact ⟨c', hc1', fun _ => hc2', fun h => absurd h hlt⟩
  obtain ⟨c, hc, hca, hcb⟩ := hcell
  obtain ⟨spend, t, tk, p, pk, e1, e2, e3, e4, e5, e6⟩ := fractionCell_ok inp surface f r c hc
  refine ⟨spend, t, tk, p, pk, e1, e2, e3, e4, e5, ?_, ?_⟩
  · intro hf
    rw [← e6, ← hlab]
    exact hsub _ (hca hf)
  · intro hf
    rw [← e6, ← hlab]
    exact hsub _ (hcb hf)

theorem mem_nonzeroFrequencies (ks : List ℚ) (n : Int) :
    n ∈ nonzeroFrequencies ks ↔ ∃ i : Nat, n = (i : Int) + 1 ∧ i < ks.length ∧ ks.getD i 0 ≠ 0 := by
  unfold nonzeroFrequencies
  simp only [List.mem_map, List.mem_filter, decide_eq_true_eq, Prod.exists]
  constructor
  · rintro ⟨v, i, ⟨hm, hv⟩, rfl⟩
    rw [List.mem_zipIdx_iff_getElem?] at hm
    have hi : i < ks.length := (List.getElem?_eq_some_iff.1 hm).1
    exact ⟨i, rfl, hi, by rw [List.getD_eq_getElem?_getD, hm]; exact hv⟩
  · rintro ⟨i, rfl, hi, hv⟩
    refine ⟨ks.getD i 0, i, ⟨?_, hv⟩, rfl⟩
    rw [List.mem_zipIdx_iff_getElem?, List.getD_eq_getElem?_getD, List.getElem?_eq_getElem hi]
    rfl

/-- C69: the last two columns hold the greatest frequency with a nonzero k+ reach (0 for a point
without any reaches).  If all reaches are zero there is no answer, and the whole trial counts as
failed although the model may be perfectly good. -/
theorem C69_max_frequency (p : ReachPoint) :
    (p.kplusReaches = [] → maxNonzeroFrequency p = .ok (.int 0)) ∧
    (p.kplusReaches ≠ [] → (∀ v ∈ p.kplusReaches, v = 0) → maxNonzeroFrequency p = .error .valueError) ∧
    ((∃ v ∈ p.kplusReaches, v ≠ 0) → ∃ k : Nat, maxNonzeroFrequency p = .ok (.int k) ∧ 1 ≤ k ∧
      k ≤ p.kplusReaches.length ∧ p.kplusReaches.getD (k - 1) 0 ≠ 0 ∧
      ∀ j, k ≤ j → p.kplusReaches.getD j 0 = 0) := by
  refine ⟨?_, ?_, ?_⟩
  · intro h; simp [maxNonzeroFrequency, h]
  · intro h h0
    have hnil : nonzeroFrequencies p.kplusReaches = [] := by
      apply List.eq_nil_iff_forall_not_mem.2
      intro n hn
      obtain ⟨i, _, hi, hv⟩ := (mem_nonzeroFrequencies _ _).1 hn
      apply hv
      rw [List.getD_eq_getElem?_getD, List.getElem?_eq_getElem hi]
      exact h0 _ (List.getElem_mem hi)
    unfold maxNonzeroFrequency
    rw [if_pos h, hnil]
    rfl
  · rintro ⟨v, hv, hv0⟩
    have hne : p.kplusReaches ≠ [] := List.ne_nil_of_mem hv
    obtain ⟨i, hi, rfl⟩ := List.mem_iff_getElem.1 hv
    have hin : ((i : Int) + 1) ∈ nonzeroFrequencies p.kplusReaches :=
      (mem_nonzeroFrequencies _ _).2 ⟨i, rfl, hi, by
        rw [List.getD_eq_getElem?_getD, List.getElem?_eq_getElem hi]; exact hv0⟩
    unfold maxNonzeroFrequency
    rw [if_pos hne]
    rcases hl : nonzeroFrequencies p.kplusReaches with _ | ⟨x, xs⟩
    · rw [hl] at hin; simp at hin
    · obtain ⟨g1, g2, g3⟩ := foldl_max_spec xs x
      have hmem : xs.foldl max x ∈ nonzeroFrequencies p.kplusReaches := by
        rw [hl]
        rcases g1 with h | h
        · rw [h]; simp
        · simp [h]
      obtain ⟨m, hm1, hm2, hm3⟩ := (mem_nonzeroFrequencies _ _).1 hmem
      refine ⟨m + 1, ?_, by omega, by omega, ?_, ?_⟩
      · simp only [pyMaxInt, bind, Except.bind, pure, Except.pure, hm1]
        norm_cast
      · simpa using hm3
      · intro j hj
        by_contra hne0
        have hjl : j < p.kplusReaches.length := by
          by_contra hge
          apply hne0
          rw [List.getD_eq_getElem?_getD, List.getElem?_eq_none (by omega)]
          rfl
        have hjm : ((j : Int) + 1) ∈ nonzeroFrequencies p.kplusReaches :=
          (mem_nonzeroFrequencies _ _).2 ⟨j, rfl, hjl, hne0⟩
        rw [hl] at hjm
        have : (j : Int) + 1 ≤ xs.foldl max x := by
          rcases List.mem_cons.1 hjm with h | h
          · rw [h]; exact g2
          · exact g3 _ h
        omega

/-- `k` is the greatest frequency with a nonzero k+ reach, or 0 if there are no reaches. -/
def LastNonzero (ks : List ℚ) (k : Nat) : Prop :=
  (ks = [] ∧ k = 0) ∨
    (1 ≤ k ∧ k ≤ ks.length ∧ ks.getD (k - 1) 0 ≠ 0 ∧ ∀ j, k ≤ j → ks.getD j 0 = 0)

theorem maxNonzeroFrequency_ok (p : ReachPoint) (c : Cell) (h : maxNonzeroFrequency p = .ok c) :
    ∃ k : Nat, c = .int k ∧ LastNonzero p.kplusReaches k := by
  obtain ⟨h1, h2, h3⟩ := C69_max_frequency p
  by_cases hn : p.kplusReaches = []
  · rw [h1 hn] at h
    cases h
    exact ⟨0, rfl, Or.inl ⟨hn, rfl⟩⟩
  · by_cases hz : ∃ v ∈ p.kplusReaches, v ≠ 0
    · obtain ⟨k, hk, rest⟩ := h3 hz
      rw [hk] at h
      cases h
      exact ⟨k, rfl, Or.inr rest⟩
    · push Not at hz
      rw [h2 hn hz] at h
      cases h

/-- C69: the last two columns of a successful single publisher trial are about the first training
point of the model and about the true reach of the campaign. -/
theorem C69_max_frequency_columns (inp : TrialInputs) (row : Row) (h : trialRow inp = .ok row)
    (ht : inp.analysisType = "single_pub") (hs : HasCell row "model_succeeded" (.int 1)) :
    ∃ surface training rest campaign, ∃ k j : Nat, inp.fit = .ok surface ∧
      surface.data = .ok (training :: rest) ∧
      inp.trueReach inp.campaignSpends inp.maxFrequency = .ok campaign ∧
      LastNonzero training.kplusReaches k ∧ LastNonzero campaign.kplusReaches j ∧
      HasCell row "max_nonzero_frequency_from_halo" (.int k) ∧
      HasCell row "max_nonzero_frequency_from_data" (.int j) := by
  obtain ⟨surface, points, tr, fi, stats, h1, -, -, -, -, -, h7⟩ := (C69_success inp row h).2.1 hs
  obtain ⟨single, hsp, hsub⟩ := h7 ht
  obtain ⟨-, -, -, ⟨data, p, c, hd, hp, hc, hcin⟩, q, d, hq, hdc, hdin⟩ :=
    singlePublisherRow_parts inp surface single hsp
  obtain ⟨k, rfl, hk⟩ := maxNonzeroFrequency_ok p c hc
  obtain ⟨j, rfl, hj⟩ := maxNonzeroFrequency_ok q d hdc
  rcases data with _ | ⟨t, rest⟩
  · cases hp
  · cases hp
    exact ⟨surface, p, rest, q, k, j, h1, hd, hq, hk, hj, hsub _ hcin, hsub _ hdin⟩

/-- C69 (a finding): a single publisher trial in which the campaign reaches nobody is reported as a
failure, whatever the model predicts. -/
theorem C69_zero_reach (inp : TrialInputs) (row : Row) (h : trialRow inp = .ok row)
    (ht : inp.analysisType = "single_pub") (p : ReachPoint)
    (hp : inp.trueReach inp.campaignSpends inp.maxFrequency = .ok p) (hne : p.kplusReaches ≠ [])
    (h0 : ∀ v ∈ p.kplusReaches, v = 0) : HasCell row "model_succeeded" (.int 0) := by
  rcases (C69_success inp row h).1 with hs | hs
  · exfalso
    obtain ⟨surface, points, tr, fi, stats, h1, -, -, -, -, -, h7⟩ := (C69_success inp row h).2.1 hs
    obtain ⟨single, hsp, hsub⟩ := h7 ht
    obtain ⟨-, -, -, -, q, c, hq, hc, -⟩ := singlePublisherRow_parts inp surface single hsp
    rw [hp] at hq
    cases hq
    rw [(C69_max_frequency p).2.1 hne h0] at hc
    cases hc
  · exact hs

/-! ## Examples -/

/-- A point with the given k+ reaches, shortened to the requested frequency. -/
def exPointAt (ks : List ℚ) (f : Int) : Except PyErr ReachPoint :=
  ReachPoint.new [1] (ks.take f.toNat)

/-- A single publisher trial; `scale` multiplies the true reaches. -/
def exInputs (analysisType : String) (scale : ℚ) (fit : Except PyErr Surface) : TrialInputs where
  dataSetName := "ds"
  descriptor := "t"
  replicaId := 1
  singlePubModel := "goerg"
  multiPubModel := "pairwise_union"
  strategy := "single_publisher"
  sketchSize := 1000
  decayRate := 12
  maximumReach := 40
  publisherReaches := [40]
  maxFrequency := 3
  spendFractions := [1 / 2]
  budget := ⟨1, 1 / 1000⟩
  fit := fit
  tracker := PrivacyTracker.new
  testPoints := .ok [[1], [2]]
  trueReach := fun spends f =>
    exPointAt ([8, 4, 0].map (fun x : ℚ => scale * x * spends.headD 0)) f
  campaignSpends := [2]
  analysisType := analysisType
  traceback := fun _ => "Traceback"

/-- A surface predicting three quarters of the reach. -/
def exTrialSurface : Surface where
  bySpend := fun spends f => exPointAt ([6, 4, 1].map (fun x : ℚ => x * spends.headD 0)) f
  data := .ok [⟨[1], [16, 8, 0], [8, 8], none, none⟩]

/-- Success: 30 + 18 columns and 30 + 60 + 2 of the examination. -/
example : ∃ row, trialRow (exInputs "single_pub" 1 (.ok exTrialSurface)) = .ok row ∧
    row.length = 140 ∧ HasCell row "model_succeeded" (.int 1) ∧
    HasCell row "relative_error_at_150" (.float (some (1 / 4))) ∧
    HasCell row "freq_2_relative_error_at_300" (.float (some 0)) ∧
    HasCell row "max_nonzero_frequency_from_data" (.int 2) := by
  refine ⟨_, rfl, ?_⟩
  unfold HasCell
  decide +kernel

/-- Failure of the fit: the same columns. -/
example : ∃ row, trialRow (exInputs "single_pub" 1 (.error .zeroDivision)) = .ok row ∧
    row.length = 140 ∧ HasCell row "model_succeeded" (.int 0) ∧
    HasCell row "relative_error_at_150" (.float none) := by
  refine ⟨_, rfl, ?_⟩
  unfold HasCell
  decide +kernel

/-- The describing columns. -/
example : ∃ row, trialRow (exInputs "" 1 (.ok exTrialSurface)) = .ok row ∧ row.length = 48 ∧
    HasCell row "largest_pub_reach" (.int 40) ∧
    HasCell row "average_spend_fraction" (.float (some (1 / 2))) := by
  refine ⟨_, rfl, ?_⟩
  unfold HasCell
  decide +kernel

/-- A campaign that reaches nobody. -/
example : ∃ row, trialRow (exInputs "single_pub" 0 (.ok exTrialSurface)) = .ok row ∧
    HasCell row "model_succeeded" (.int 0) := by
  refine ⟨_, rfl, ?_⟩
  unfold HasCell
  decide +kernel

end Verif
