import Verif.Model.DriverRun
import Verif.Props.AnyGenerators
import Verif.Props.Designs
import Verif.Lemmas.Storage
import Mathlib.Data.Rat.Encodable
import Mathlib.Logic.Equiv.List
import Verif.Props.TrialPrivacy

/-!
# Whole runs of the driver (C83)
-/

namespace Verif

open Verif.Spec

variable {S C : Type}

/-- A trial that yields a row on every data set of the data design (`C97_returns_row`). -/
def Runnable (D : Dict String DataSet) (t : TrialTemplate Nat) : Prop :=
  ∀ nd ∈ D, 1 ≤ nd.2.data.length ∧
    nd.2.data.length ≤ (t.update id nd.2.publisherCount).desc.system.spends.length ∧
    RegisteredNames t.desc.strategy ∧ KnownStrategyKwargs t.desc.strategy

/-- The rows that a trial can give. -/
def TrialGives (E : TrialEnv S C) (points : Int → PointSource) (analysisType : String) (seed : Int)
    (name : String) (ds : DataSet) (t : TrialTemplate Nat) (row : Row) : Prop :=
  ∃ draws, (designOutcome { E with points := points seed } name ds t analysisType draws).1 = .ok row

/-- Some trial of the design can give the row on some data set. -/
def DesignGives (E : TrialEnv S C) (points : Int → PointSource) (analysisType : String) (seed : Int)
    (D : Dict String DataSet) (ts : List (TrialTemplate Nat)) (row : Row) : Prop :=
  ∃ nd ∈ D, ∃ t ∈ ts, TrialGives E points analysisType seed nd.1 nd.2 t row

/-- The row for a data set and a description: it is a result of such a trial, names data set and
trial, has the columns of the analysis, says whether modelling succeeded, and reports a privacy
consumption within the budget of the trial. -/
structure RowFor (E : TrialEnv S C) (points : Int → PointSource) (analysisType : String) (seed : Int)
    (D : Dict String DataSet) (ts : List (TrialTemplate Nat)) (key : String × String) (row : Row) :
    Prop where
  result : ∃ ds t, (key.1, ds) ∈ D ∧ t ∈ ts ∧ key.2 = trialText E.text ds t ∧
    TrialGives E points analysisType seed key.1 ds t row ∧
    row.map (·.1) = trialColumns analysisType t.desc.experiment.maxFrequency ∧
    HasCell row "privacy_budget_epsilon" (.float (some t.desc.experiment.budget.epsilon)) ∧
    HasCell row "privacy_budget_delta" (.float (some t.desc.experiment.budget.delta)) ∧
    ∃ eps delta, HasCell row "privacy_used_epsilon" (.float (some eps)) ∧
      HasCell row "privacy_used_delta" (.float (some delta)) ∧
      0 ≤ eps ∧ eps ≤ t.desc.experiment.budget.epsilon ∧
      0 ≤ delta ∧ delta ≤ t.desc.experiment.budget.delta
  dataset : HasCell row "dataset" (.text key.1)
  trial : HasCell row "trial" (.text key.2)
  succeeded : HasCell row "model_succeeded" (.int 1) ∨ HasCell row "model_succeeded" (.int 0)

/-- The generated trials and what they are. -/
theorem mem_driver_trials (T : FloatText) (D : Dict String DataSet) (hD : (D.map (·.1)).Nodup)
    (ts : List (TrialTemplate Nat)) (dir analysisType : String) (c : TrialConfig)
    (hc : c ∈ (D.map (·.1)).flatMap (experimentTrials dir analysisType (driverDescriptors T D ts))) :
    ∃ nd ∈ D, ∃ t ∈ ts, c.dataSetName = nd.1 ∧ dictLookup D nd.1 = .ok nd.2 ∧
      ts[c.hidden.toNat]? = some t ∧ c.descriptor = trialText T nd.2 t ∧
      c.analysisType = analysisType := by
  obtain ⟨n, hn, hc⟩ := List.mem_flatMap.1 hc
  obtain ⟨nd, hnd, rfl⟩ := List.mem_map.1 hn
  obtain ⟨d, hd, rfl⟩ := List.mem_map.1 hc
  obtain ⟨⟨t, i⟩, hti, rfl⟩ := List.mem_map.1 hd
  have hl := dictLookup_mem D hD nd.1 nd.2 hnd
  have hti2 := List.mem_zipIdx_iff_getElem?.1 hti
  refine ⟨nd, hnd, t, List.mem_of_getElem? hti2, rfl, hl, ?_, ?_, rfl⟩
  · simpa using hti2
  · simp only [hl]

theorem driver_trials_complete (T : FloatText) (D : Dict String DataSet) (hD : (D.map (·.1)).Nodup)
    (ts : List (TrialTemplate Nat)) (dir analysisType : String) (nd : String × DataSet) (hnd : nd ∈ D)
    (t : TrialTemplate Nat) (ht : t ∈ ts) :
    ∃ c ∈ (D.map (·.1)).flatMap (experimentTrials dir analysisType (driverDescriptors T D ts)),
      trialKey c = (nd.1, trialText T nd.2 t) := by
  obtain ⟨i, hi, rfl⟩ := List.mem_iff_getElem.1 ht
  have hl := dictLookup_mem D hD nd.1 nd.2 hnd
  refine ⟨_, List.mem_flatMap.2 ⟨nd.1, List.mem_map_of_mem hnd, List.mem_map.2 ⟨_, List.mem_map.2
    ⟨(ts[i], i), List.mem_zipIdx_iff_getElem?.2 (by simp [hi]), rfl⟩, rfl⟩⟩, ?_⟩
  simp only [trialKey, hl]

theorem driver_resultOf (base : World Row (Nat → Nat)) (E : TrialEnv S C) (points : Int → PointSource)
    (D : Dict String DataSet) (ts : List (TrialTemplate Nat)) (seed : Int) (c : TrialConfig)
    (nd : String × DataSet) (t : TrialTemplate Nat) (h1 : c.dataSetName = nd.1)
    (h2 : dictLookup D nd.1 = .ok nd.2) (h3 : ts[c.hidden.toNat]? = some t) (row : Row) :
    ResultOf (driverWorld base E points D ts) seed c row ↔
      TrialGives E points c.analysisType seed nd.1 nd.2 t row := by
  constructor
  · rintro ⟨g, hg⟩
    refine ⟨g c.hidden.toNat, ?_⟩
    simpa only [driverWorld, driverOutcome, TrialEnv.seeded, h1, h2, h3] using hg
  · rintro ⟨draws, hd⟩
    refine ⟨fun _ => draws, ?_⟩
    simpa only [driverWorld, driverOutcome, TrialEnv.seeded, h1, h2, h3] using hd

/-- What a row of a trial shows. -/
theorem rowFor_of_gives (E : TrialEnv S C) (hlib : ∀ x y z, ReportsItsBudgets (E.lib x y z))
    (points : Int → PointSource) (analysisType : String) (seed : Int) (D : Dict String DataSet)
    (ts : List (TrialTemplate Nat)) (nd : String × DataSet) (hnd : nd ∈ D) (t : TrialTemplate Nat)
    (ht : t ∈ ts) (he : 0 ≤ t.desc.experiment.budget.epsilon)
    (hd : 0 ≤ t.desc.experiment.budget.delta) (row : Row)
    (h : TrialGives E points analysisType seed nd.1 nd.2 t row) :
    RowFor E points analysisType seed D ts (nd.1, trialText E.text nd.2 t) row := by
  have h' := h
  obtain ⟨draws, hrow⟩ := h
  obtain ⟨hs, o, -, -, hr⟩ := trialOutcome_row _ _ _ _ _ _ _ hrow
  have hdesc := C69_describing _ _ hr
  have hcols := C69_columns _ _ hr
  have hsucc := (C69_success _ _ hr).1
  have hbud := C98_within_budget { E with points := points seed } hlib nd.1 nd.2
    (t.update id nd.2.publisherCount).desc analysisType draws row hrow he hd
  have hcolumns := C98_columns { E with points := points seed } hlib nd.1 nd.2
    (t.update id nd.2.publisherCount).desc analysisType draws row hrow he hd
  exact {
    result := ⟨nd.2, t, hnd, ht, rfl, h', hcols, hcolumns.1, hcolumns.2.1, hbud⟩
    dataset := hdesc.1
    trial := hdesc.2.1
    succeeded := hsucc }

/-- **C83 (whole run).** A run of the driver in which all trials yield rows, with the trials as they
are modelled here: for each pair of a data set and a description of a trial on it there is exactly one
row, which is a result of such a trial and says so; it says whether modelling succeeded and reports a
privacy consumption within the budget.  This holds on one core, with any interleaving of workers, and
on Beam with restarts; also if earlier runs were interrupted.  The output file has these rows, too. -/
theorem C83_whole_run (base : World Row (Nat → Nat)) (hw : HexDigest base) (csv : FrameCsv Row)
    (E : TrialEnv S C) (hlib : ∀ x y z, ReportsItsBudgets (E.lib x y z)) (points : Int → PointSource)
    (D : Dict String DataSet) (hD : (D.map (·.1)).Nodup) (hDne : D ≠ [])
    (hnames : ∀ nd ∈ D, ':' ∉ nd.1.toList ∧ '/' ∉ nd.1.toList)
    (ts : List (TrialTemplate Nat)) (hts : ts ≠ []) (hrun : ∀ t ∈ ts, Runnable D t)
    (hbud : ∀ t ∈ ts, 0 ≤ t.desc.experiment.budget.epsilon ∧ 0 ≤ t.desc.experiment.budget.delta)
    (dir analysisType : String) (seed : Int) (norm : Row → Row)
    (hread : ∀ row, DesignGives E points analysisType seed D ts row →
      base.readCsv (base.toCsv row) = .ok (norm row) ∧ norm (norm row) = norm row ∧
      TornUnreadable base (base.toCsv row))
    (hcsv : ∀ rows : List Row, (∀ r' ∈ rows, ∃ r, DesignGives E points analysisType seed D ts r ∧
      SameRow norm r r') → csv.readCsv (csv.toCsv rows) = .ok (rows.map norm))
    (outputFile : String) (fs : Files)
    (hfs : ∀ c ∈ (D.map (·.1)).flatMap
        (experimentTrials dir analysisType (driverDescriptors E.text D ts)),
      Resumable base (ResultOf (driverWorld base E points D ts) seed c) (fs (resultsPath c)))
    (g : Nat → Nat)
    (runner : Runner (Nat → Nat)
      (designTrials dir analysisType (driverDescriptors E.text D ts) (D.map (·.1))).length)
    (hfin : RunnerFinishes (driverWorld base E points D ts)
      (designTrials dir analysisType (driverDescriptors E.text D ts) (D.map (·.1))) seed fs g runner) :
    ∃ (keys : List (String × String)) (results rows : List Row) (fs' : Files), keys.Nodup ∧
      (∀ k, k ∈ keys ↔ ∃ nd ∈ D, ∃ t ∈ ts, k = (nd.1, trialText E.text nd.2 t)) ∧
      List.Forall₂ (RowFor E points analysisType seed D ts) keys results ∧
      driverExecute base csv E points D ts dir analysisType seed outputFile fs g runner =
        some (.ok rows, fs') ∧
      (∃ ordered, List.Forall₂ (SameRow norm) results ordered ∧ rows.Perm ordered ∧
        ((∀ evs tree temp, runner ≠ .beam evs tree temp) → rows = ordered)) ∧
      ∃ txt saved, fs' outputFile = some txt ∧ csv.readCsv txt = .ok saved ∧
        saved.Perm (results.map norm) ∧
        ((∀ evs tree temp, runner ≠ .beam evs tree temp) → saved = results.map norm) := by
  have hgive : ∀ c ∈ (D.map (·.1)).flatMap
      (experimentTrials dir analysisType (driverDescriptors E.text D ts)), ∀ r,
      ResultOf (driverWorld base E points D ts) seed c r →
      DesignGives E points analysisType seed D ts r := by
    intro c hc r hr
    obtain ⟨nd, hnd, t, ht, h1, h2, h3, -, h5⟩ := mem_driver_trials E.text D hD ts dir analysisType c hc
    have h := (driver_resultOf base E points D ts seed c nd t h1 h2 h3 r).1 hr
    rw [h5] at h
    exact ⟨nd, hnd, t, ht, h⟩
  obtain ⟨trials, results, rows, fs', k1, k2, k3, k4, k5⟩ := C83_any_generators
    (driverWorld base E points D ts) hw csv dir analysisType (driverDescriptors E.text D ts)
    (D.map (·.1))
    (by
      intro n hn
      obtain ⟨nd, hnd, rfl⟩ := List.mem_map.1 hn
      exact hnames nd hnd)
    (by simpa using hDne)
    (by simpa [driverDescriptors] using hts) seed norm _ rfl
    (by
      intro c hc g
      obtain ⟨nd, hnd, t, ht, h1, h2, h3, -, h5⟩ :=
        mem_driver_trials E.text D hD ts dir analysisType c hc
      obtain ⟨r1, r2, r3, r4⟩ := hrun t ht nd hnd
      obtain ⟨row, hrow⟩ := (C97_returns_row { E with points := points seed } nd.1 nd.2
        (t.update id nd.2.publisherCount).desc c.analysisType (g c.hidden.toNat)).2 ⟨r1, r2, r3, r4⟩
      refine ⟨row, ?_⟩
      simpa only [driverWorld, driverOutcome, TrialEnv.seeded, h1, h2, h3, designOutcome] using hrow)
    (fun c hc r hr => (hread r (hgive c hc r hr)).1)
    (fun c hc r hr => (hread r (hgive c hc r hr)).2.1)
    (fun c hc r hr => (hread r (hgive c hc r hr)).2.2)
    (by
      intro rows hrows
      refine hcsv rows ?_
      intro r' hr'
      obtain ⟨c, hc, r, h1, h2⟩ := hrows r' hr'
      exact ⟨r, hgive c hc r h1, h2⟩)
    outputFile fs hfs g runner hfin
  refine ⟨trials.map trialKey, results, rows, fs', k1.once, ?_, ?_, k3, k4, k5⟩
  · intro k
    constructor
    · intro hk
      obtain ⟨c, hc, rfl⟩ := List.mem_map.1 hk
      obtain ⟨nd, hnd, t, ht, h1, -, -, h4, -⟩ :=
        mem_driver_trials E.text D hD ts dir analysisType c (k1.order.subset hc)
      exact ⟨nd, hnd, t, ht, by rw [trialKey, h1, h4]⟩
    · rintro ⟨nd, hnd, t, ht, rfl⟩
      obtain ⟨c, hc, h⟩ := driver_trials_complete E.text D hD ts dir analysisType nd hnd t ht
      rw [← h]
      exact k1.each c hc
  · rw [List.forall₂_map_left_iff]
    rw [List.forall₂_iff_get] at k2 ⊢
    refine ⟨k2.1, ?_⟩
    intro i h1 h2
    have hc := k1.order.subset (List.getElem_mem h1)
    obtain ⟨nd, hnd, t, ht, e1, e2, e3, e4, e5⟩ :=
      mem_driver_trials E.text D hD ts dir analysisType _ hc
    have h := (driver_resultOf base E points D ts seed _ nd t e1 e2 e3 _).1 (k2.2 i h1 h2)
    simp only [List.get_eq_getElem] at h ⊢
    rw [e5] at h
    have hb := hbud t ht
    have hR := rowFor_of_gives E hlib points analysisType seed D ts nd hnd t ht hb.1 hb.2 _ h
    rw [trialKey, e1, e4]
    exact hR

/-! ## The number of rows -/

/-- One row per data set and trial, if no two trials have the same description on a data set. -/
theorem keys_length (T : FloatText) (D : Dict String DataSet) (hD : (D.map (·.1)).Nodup)
    (ts : List (TrialTemplate Nat)) (keys : List (String × String)) (hk : keys.Nodup)
    (hmem : ∀ k, k ∈ keys ↔ ∃ nd ∈ D, ∃ t ∈ ts, k = (nd.1, trialText T nd.2 t))
    (htext : ∀ nd ∈ D, (ts.map (trialText T nd.2)).Nodup) : keys.length = D.length * ts.length := by
  have hnd : (D.flatMap (fun nd => ts.map (fun t => (nd.1, trialText T nd.2 t)))).Nodup := by
    rw [List.nodup_flatMap]
    constructor
    · intro nd hnd
      have h := htext nd hnd
      have h2 : ts.map (fun t => (nd.1, trialText T nd.2 t)) =
          (ts.map (trialText T nd.2)).map (Prod.mk nd.1) := by
        rw [List.map_map]
        rfl
      rw [h2]
      exact h.map (Prod.mk_right_injective nd.1)
    · rw [List.Nodup, List.pairwise_map] at hD
      refine hD.imp ?_
      intro a b hab
      rw [Function.onFun, List.disjoint_left]
      intro x hx hx'
      obtain ⟨t, -, rfl⟩ := List.mem_map.1 hx
      obtain ⟨t', -, h⟩ := List.mem_map.1 hx'
      exact hab (congrArg Prod.fst h).symm
  have hperm : keys.Perm (D.flatMap (fun nd => ts.map (fun t => (nd.1, trialText T nd.2 t)))) := by
    rw [List.perm_ext_iff_of_nodup hk hnd]
    intro k
    rw [hmem k, List.mem_flatMap]
    constructor
    · rintro ⟨nd, h1, t, h2, rfl⟩
      exact ⟨nd, h1, List.mem_map.2 ⟨t, h2, rfl⟩⟩
    · rintro ⟨nd, h1, h2⟩
      obtain ⟨t, h3, rfl⟩ := List.mem_map.1 h2
      exact ⟨nd, h1, t, h3, rfl⟩
  rw [hperm.length_eq, List.length_flatMap]
  simp

/-- The trials of the first round yield rows on data sets with publishers. -/
theorem firstRound_runnable (E : TrialEnv S C) (seed : Int) (D : Dict String DataSet)
    (hpub : ∀ nd ∈ D, nd.2.data ≠ []) (t : TrialTemplate Nat)
    (ht : t ∈ factorialTrials m3TrialLevels seed) : Runnable D t := by
  intro nd hnd
  have h := (C97_shipped_partial E seed t nd.1 nd.2 "" 0).1 (Or.inl ht) (hpub nd hnd)
  exact (C97_returns_row E nd.1 nd.2 (t.update id nd.2.publisherCount).desc "" 0).1 h

theorem firstRound_budgets (seed : Int) (t : TrialTemplate Nat)
    (ht : t ∈ factorialTrials m3TrialLevels seed) :
    0 ≤ t.desc.experiment.budget.epsilon ∧ 0 ≤ t.desc.experiment.budget.delta := by
  rw [factorialTrials_eq] at ht
  obtain ⟨⟨m, s, l, b, r, f, p⟩, h, rfl⟩ := List.mem_map.1 ht
  simp only [List.mem_product] at h
  have hb := h.2.2.2.1
  simp only [trialOfLevels]
  have hall : ∀ b ∈ m3TrialLevels.budgets, 0 ≤ b.epsilon ∧ 0 ≤ b.delta := by decide +kernel
  exact hall b hb

theorem firstRound_length (seed : Int) : (factorialTrials m3TrialLevels seed).length = 288 := by
  rw [(C80_descriptions fracText fracText_good (id : Nat → Nat) m3TrialLevels seed 1
    (m3TrialLevels_told 1 le_rfl)).1]
  rfl

/-- On a data set with publishers the trials of the first round have different descriptions. -/
theorem firstRound_texts (T : FloatText) (hT : GoodFloats T) (seed : Int) (ds : DataSet)
    (hpub : ds.data ≠ []) : ((factorialTrials m3TrialLevels seed).map (trialText T ds)).Nodup := by
  have hpos : 1 ≤ ds.publisherCount := List.length_pos_iff.2 hpub
  have h := (C80_descriptions T hT (id : Nat → Nat) m3TrialLevels seed ds.publisherCount
    (m3TrialLevels_told _ hpos)).2
  have h' : (factorialTrials m3TrialLevels seed).map (trialText T ds) =
      ((factorialTrials m3TrialLevels seed).map
        (fun t => (t.update id ds.publisherCount).desc.str T)).map String.ofList := by
    rw [List.map_map]
    rfl
  rw [h']
  exact h.map (fun a b hab => by simpa using congrArg String.toList hab)

/-- **C83 (the first round).** Run with the first round design on data sets with publishers, the
driver gives exactly 288 rows per data set, one for each trial of the design on each data set, in the
frame it returns and in the output file; each row names its data set and its trial and reports a
privacy consumption within its budget. -/
theorem C83_first_round (base : World Row (Nat → Nat)) (hw : HexDigest base) (csv : FrameCsv Row)
    (E : TrialEnv S C) (hlib : ∀ x y z, ReportsItsBudgets (E.lib x y z)) (hT : GoodFloats E.text)
    (points : Int → PointSource)
    (D : Dict String DataSet) (hD : (D.map (·.1)).Nodup) (hDne : D ≠ [])
    (hnames : ∀ nd ∈ D, ':' ∉ nd.1.toList ∧ '/' ∉ nd.1.toList)
    (hpub : ∀ nd ∈ D, nd.2.data ≠ []) (dir analysisType : String) (seed : Int) (norm : Row → Row)
    (ts : List (TrialTemplate Nat)) (hts : ts = factorialTrials m3TrialLevels seed)
    (hread : ∀ row, DesignGives E points analysisType seed D ts row →
      base.readCsv (base.toCsv row) = .ok (norm row) ∧ norm (norm row) = norm row ∧
      TornUnreadable base (base.toCsv row))
    (hcsv : ∀ rows : List Row, (∀ r' ∈ rows, ∃ r, DesignGives E points analysisType seed D ts r ∧
      SameRow norm r r') → csv.readCsv (csv.toCsv rows) = .ok (rows.map norm))
    (outputFile : String) (g : Nat → Nat)
    (runner : Runner (Nat → Nat)
      (designTrials dir analysisType (driverDescriptors E.text D ts) (D.map (·.1))).length)
    (hfin : RunnerFinishes (driverWorld base E points D ts)
      (designTrials dir analysisType (driverDescriptors E.text D ts) (D.map (·.1))) seed
      (fun _ => none) g runner) :
    ∃ (keys : List (String × String)) (results rows saved : List Row) (fs' : Files) (txt : Text),
      keys.Nodup ∧ keys.length = D.length * 288 ∧
      (∀ nd ∈ D, ∀ t ∈ ts, (nd.1, trialText E.text nd.2 t) ∈ keys) ∧
      List.Forall₂ (RowFor E points analysisType seed D ts) keys results ∧
      driverExecute base csv E points D ts dir analysisType seed outputFile (fun _ => none) g runner =
        some (.ok rows, fs') ∧
      (∃ ordered, List.Forall₂ (SameRow norm) results ordered ∧ rows.Perm ordered) ∧
      fs' outputFile = some txt ∧ csv.readCsv txt = .ok saved ∧ saved.Perm (results.map norm) ∧
      rows.length = D.length * 288 ∧ saved.length = D.length * 288 := by
  have htlen : ts.length = 288 := by rw [hts, firstRound_length]
  have htsne : ts ≠ [] := by
    rintro rfl
    cases htlen
  obtain ⟨keys, results, rows, fs', h1, h2, h3, h4, ⟨ordered, h5, h6, -⟩, txt, saved, h7, h8, h9, -⟩ :=
    C83_whole_run base hw csv E hlib points D hD hDne hnames ts htsne
      (fun t ht => firstRound_runnable E seed D hpub t (hts ▸ ht))
      (fun t ht => firstRound_budgets seed t (hts ▸ ht)) dir analysisType seed norm hread hcsv
      outputFile (fun _ => none) (fun _ _ => Or.inl rfl) g runner hfin
  have hlen : keys.length = D.length * 288 := by
    rw [← htlen]
    refine keys_length E.text D hD ts keys h1 h2 ?_
    intro nd hnd
    rw [hts]
    exact firstRound_texts E.text hT seed nd.2 (hpub nd hnd)
  have hrl : results.length = D.length * 288 := by rw [← h3.length_eq, hlen]
  refine ⟨keys, results, rows, saved, fs', txt, h1, hlen, ?_, h3, h4, ⟨ordered, h5, h6⟩, h7, h8, h9, ?_, ?_⟩
  · intro nd hnd t ht
    exact (h2 _).2 ⟨nd, hnd, t, ht, rfl⟩
  · rw [h6.length_eq, ← h5.length_eq, hrl]
  · rw [h9.length_eq, List.length_map, hrl]

/-! ## An example -/

instance : Countable Cell := by
  refine Function.Injective.countable (β := ℤ ⊕ List ℕ ⊕ Option ℚ) (f := fun c => match c with
    | .int n => .inl n
    | .text s => .inr (.inl (s.toList.map Char.toNat))
    | .float v => .inr (.inr v)) ?_
  intro a b h
  cases a <;> cases b <;> simp only [Sum.inl.injEq, Sum.inr.injEq, reduceCtorEq] at h
  · rw [h]
  · rename_i s t
    have h2 : s.toList = t.toList := List.map_injective_iff.2 (fun c d hcd => by
      exact Char.ext (UInt32.toNat_inj.1 hcd)) h
    rw [String.toList_injective h2]
  · rw [h]

instance : Countable String :=
  Function.Injective.countable (f := fun s : String => Cell.text s) (fun _ _ h => by injection h)

noncomputable instance : Encodable Row := Encodable.ofCountable _

noncomputable instance : Encodable (List Row) := Encodable.ofCountable _

/-- A text for every element of a countable type: its number in unary. -/
noncomputable def exWriteCode {α : Type} [Encodable α] (x : α) : Text :=
  exGenWorld.toCsv (Encodable.encode x)

/-- Reading such a text. -/
noncomputable def exReadCode {α : Type} [Encodable α] (txt : Text) : Except PyErr α :=
  match exGenWorld.readCsv txt with
  | .error e => .error e
  | .ok n => match Encodable.decode n with
    | some x => .ok x
    | none => .error .valueError

theorem exReadCode_exWriteCode {α : Type} [Encodable α] (x : α) : exReadCode (exWriteCode x) = .ok x := by
  simp only [exReadCode, exWriteCode, exGenWorld_read, Encodable.encodek]

/-- Files with rows. -/
noncomputable def exRowWorld : World Row (Nat → Nat) where
  outcome _ _ g := (.error .runtimeError, g)
  toCsv := exWriteCode
  readCsv := exReadCode
  md5 _ := "0"
  pendingText _ := []
  buffer := 0

/-- Files with several rows. -/
noncomputable def exRowsCsv : FrameCsv Row where
  toCsv := exWriteCode
  readCsv := exReadCode

theorem exRowWorld_hex : HexDigest exRowWorld := exGenWorld_hex

theorem exRowWorld_torn (row : Row) : TornUnreadable exRowWorld (exRowWorld.toCsv row) := by
  intro k hk
  obtain ⟨e, he⟩ := exGenWorld_torn (Encodable.encode row) k hk
  refine ⟨e, ?_⟩
  change exReadCode (torn exGenWorld (exGenWorld.toCsv (Encodable.encode row)) k) = _
  simp only [exReadCode, he]

/-- Two data sets, one with a single publisher and one with two. -/
noncomputable def exRunDesign : Dict String DataSet := [("one", exOne), ("two", exDataSet)]

/-- The first round on two data sets, with any interleaving of the workers: 576 rows. -/
example (ts : List (TrialTemplate Nat)) (hts : ts = factorialTrials m3TrialLevels 1)
    (schedule : List (Fin (designTrials "d/e" "" (driverDescriptors exEnv.text exRunDesign ts)
      (exRunDesign.map (·.1))).length)) (g : Nat → Nat) :
    ∃ rows fs', driverExecute exRowWorld exRowsCsv exEnv (fun _ => exEnv.points) exRunDesign ts
      "d/e" "" 1 "out.csv" (fun _ => none) g (.cores schedule) = some (.ok rows, fs') ∧
      rows.length = 576 := by
  obtain ⟨keys, results, rows, saved, fs', txt, -, -, -, -, h4, -, -, -, -, h5, -⟩ := C83_first_round
    exRowWorld exRowWorld_hex exRowsCsv exEnv (fun _ _ _ => fun _ _ => rfl) fracText_good
    (fun _ => exEnv.points) exRunDesign (by decide) (by simp [exRunDesign]) (by
      intro nd hnd
      simp only [exRunDesign, List.mem_cons, List.not_mem_nil, or_false] at hnd
      rcases hnd with rfl | rfl <;> decide +kernel) (by
      intro nd hnd
      simp only [exRunDesign, List.mem_cons, List.not_mem_nil, or_false] at hnd
      rcases hnd with rfl | rfl <;> simp [exOne, exDataSet, exPubs]) "d/e" "" 1 id ts hts
    (fun row _ => ⟨exReadCode_exWriteCode row, rfl, exRowWorld_torn row⟩)
    (fun rows _ => by rw [List.map_id]; exact exReadCode_exWriteCode rows) "out.csv" g (.cores schedule)
    trivial
  exact ⟨rows, fs', h4, h5⟩

end Verif
