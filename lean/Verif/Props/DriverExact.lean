import Verif.Props.DriverRun

/-!
# Exactly which rows a run of the driver gives (C83)
-/

namespace Verif

open Verif.Spec

/-! ## Spec -/

/-- All rows, or the first exception. -/
def allRows {ρ : Type} : List (Except PyErr ρ) → Except PyErr (List ρ)
  | [] => .ok []
  | .error e :: _ => .error e
  | .ok r :: rest =>
    match allRows rest with
    | .error e => .error e
    | .ok rows => .ok (r :: rows)

/-- The results of trials, each with the state of its own generator, on one data set after the other: a
generator continues where the previous data set has left it. -/
def continuingRows {S C : Type} (E : TrialEnv S C) (analysisType : String) :
    Dict String DataSet → List (TrialTemplate Nat × Nat) → List (Except PyErr Row)
  | [], _ => []
  | nd :: rest, trials =>
    trials.map (fun tg => (designOutcome E nd.1 nd.2 tg.1 analysisType tg.2).1) ++
      continuingRows E analysisType rest (trials.map (fun tg =>
        (tg.1, (designOutcome E nd.1 nd.2 tg.1 analysisType tg.2).2)))

/-- The same if on every data set the generators start afresh. -/
def freshRows {S C : Type} (E : TrialEnv S C) (analysisType : String) (D : Dict String DataSet)
    (trials : List (TrialTemplate Nat × Nat)) : List (Except PyErr Row) :=
  D.flatMap (fun nd => trials.map (fun tg => (designOutcome E nd.1 nd.2 tg.1 analysisType tg.2).1))

/-- The trials of a design with the states of their generators. -/
def withGenerators (ts : List (TrialTemplate Nat)) (g : Nat → Nat) : List (TrialTemplate Nat × Nat) :=
  ts.zipIdx.map (fun ti => (ti.1, g ti.2))

/-! ## Lemmas -/

section general
variable {ρ γ : Type}

/-- Results of trials one after the other. -/
def chainRows (w : World ρ γ) (seed : Int) : List TrialConfig → γ → List (Except PyErr ρ)
  | [], _ => []
  | t :: rest, g => (w.outcome t seed g).1 :: chainRows w seed rest (w.outcome t seed g).2

/-- Generators after trials. -/
def chainState (w : World ρ γ) (seed : Int) : List TrialConfig → γ → γ
  | [], g => g
  | t :: rest, g => chainState w seed rest (w.outcome t seed g).2

theorem chainRows_append (w : World ρ γ) (seed : Int) (l m : List TrialConfig) : ∀ g,
    chainRows w seed (l ++ m) g = chainRows w seed l g ++ chainRows w seed m (chainState w seed l g) := by
  induction l with
  | nil => intro g; rfl
  | cons t l ih => intro g; simp only [List.cons_append, chainRows, chainState, ih]

theorem evaluateAll_fresh (w : World ρ γ) (hw : HexDigest w) (seed : Int) (trials : List TrialConfig) :
    ∀ (fs : Files) (g : γ), (trials.map resultsPath).Nodup →
      (∀ t ∈ trials, fs (resultsPath t) = none) →
      (evaluateAll w seed trials fs g).1 = allRows (chainRows w seed trials g) := by
  induction trials with
  | nil => intro fs g _ _; rfl
  | cons t rest ih =>
    intro fs g hnd hfs
    rw [List.map_cons, List.nodup_cons] at hnd
    have h0 := hfs t (by simp)
    rcases ho : w.outcome t seed g with ⟨e | r, g'⟩
    · simp only [evaluateAll, evaluate, h0, computeTrial, ho, chainRows, allRows]
    · have hih := ih (setFile (setFile (setFile fs (pendingPath w t) (some (w.pendingText t)))
        (resultsPath t) (some (w.toCsv r))) (pendingPath w t) none) g' hnd.2 (by
          intro u hu
          rw [setFile_other _ _ (path_ne_pending w hw u t), setFile_other _ _ (fun e => hnd.1
            (List.mem_map.2 ⟨u, hu, e⟩)), setFile_other _ _ (path_ne_pending w hw u t)]
          exact hfs u (by simp [hu]))
      simp only [evaluateAll, evaluate, h0, computeTrial, ho, chainRows, allRows]
      rw [← hih]
      rcases evaluateAll w seed rest _ g' with ⟨e | rs, fs'', g''⟩ <;> rfl

theorem allRows_ok (rows : List ρ) : allRows (rows.map (fun r => (.ok r : Except PyErr ρ))) = .ok rows := by
  induction rows with
  | nil => rfl
  | cons r rows ih => simp only [List.map_cons, allRows, ih]

theorem allRows_nil_iff (l : List (Except PyErr ρ)) : allRows l = .ok [] ↔ l = [] := by
  cases l with
  | nil => simp [allRows]
  | cons x l =>
    rcases x with e | r
    · simp [allRows]
    · simp only [allRows]
      rcases allRows l with e | rows <;> simp

theorem loadSequential_fresh (w : World ρ γ) (hw : HexDigest w) (seed : Int) (trials : List TrialConfig)
    (hne : trials ≠ []) (fs : Files) (g : γ) (hnd : (trials.map resultsPath).Nodup)
    (hfs : ∀ t ∈ trials, fs (resultsPath t) = none) :
    (loadSequential w trials seed fs g).1 = allRows (chainRows w seed trials g) := by
  have h := evaluateAll_fresh w hw seed trials fs g hnd hfs
  have h2 : allRows (chainRows w seed trials g) ≠ .ok [] := by
    rw [ne_eq, allRows_nil_iff]
    cases trials with
    | nil => exact absurd rfl hne
    | cons t rest => simp [chainRows]
  unfold loadSequential
  rcases he : evaluateAll w seed trials fs g with ⟨e | rows, fs', g'⟩
  · rw [he] at h; exact h
  · rw [he] at h
    cases rows with
    | nil => exact absurd h.symm h2
    | cons r rows => exact h

/-- The exception, if it is one. -/
def raisedBy : Except PyErr ρ → Option PyErr
  | .error e => some e
  | .ok _ => none

theorem allRows_error_of_findSome (l : List (Except PyErr ρ)) (e : PyErr)
    (h : l.findSome? raisedBy = some e) :
    allRows l = .error e := by
  induction l with
  | nil => cases h
  | cons x l ih =>
    rcases x with e' | r
    · simp only [List.findSome?_cons, raisedBy] at h
      cases h
      rfl
    · simp only [List.findSome?_cons, raisedBy] at h
      simp only [allRows, ih h]

/-- Workers that are finished, from an empty directory. -/
theorem loadParallel_fresh (w : World ρ γ) (hw : HexDigest w) (norm : ρ → ρ) (seed : Int) (g : γ)
    (trials : List TrialConfig) (hne : trials ≠ []) (fs : Files)
    (hnd : (trials.map resultsPath).Nodup) (hfs : ∀ t ∈ trials, fs (resultsPath t) = none)
    (hread : ∀ t ∈ trials, ∀ r, (w.outcome t seed g).1 = .ok r →
      w.readCsv (w.toCsv r) = .ok (norm r) ∧ TornUnreadable w (w.toCsv r))
    (schedule : List (Fin trials.length))
    (hdone : ∀ i, ∃ res, (runWorkers w trials seed fs g schedule).pc i = .done res) :
    (loadParallel w trials seed fs g schedule).1 =
      allRows (trials.map (fun t => (w.outcome t seed g).1.map norm)) := by
  have hmem : ∀ i : Fin trials.length, trials[i] ∈ trials := fun i => List.getElem_mem _
  have hinv : SysInv w (fun i : Fin trials.length => trials[i]) (fun _ g' => g' = g)
      (fun i => (w.outcome trials[i] seed g).1) (runWorkers w trials seed fs g schedule) := by
    refine sysRun_inv w hw _ seed (paths_inj hnd) _ _ ?_ ?_ _ _ ?_ ?_
    · rintro i g' rfl; rfl
    · intro i r hr
      exact (hread _ (hmem i) r hr).2
    · intro i
      have h0 : Recoverable w (w.outcome trials[i] seed g).1 (fs (resultsPath trials[i])) := by
        rw [hfs _ (hmem i)]; trivial
      exact ⟨rfl, h0⟩
    · intro ev hev
      obtain ⟨i, -, rfl⟩ := List.mem_map.1 hev
      trivial
  have hend : ∀ i : Fin trials.length,
      ((runWorkers w trials seed fs g schedule).pc i).raised =
        raisedBy (w.outcome trials[i] seed g).1 ∧
      ∀ r, (w.outcome trials[i] seed g).1 = .ok r →
        (runWorkers w trials seed fs g schedule).fs (resultsPath trials[i]) = some (w.toCsv r) := by
    intro i
    obtain ⟨res, hres⟩ := hdone i
    have h := hinv i
    rw [hres] at h
    obtain ⟨h1, -, h3⟩ := h
    refine ⟨?_, h3⟩
    rw [hres]
    simp only [Answer] at h1
    rcases h1 with h1 | ⟨r, h1, h2⟩
    · rw [← h1]
      rcases res with e | r <;> rfl
    · rw [(hread _ (hmem i) r h1).1] at h2
      rw [h2, h1]
      rfl
  have hfind : (List.finRange trials.length).findSome?
      (fun i => ((runWorkers w trials seed fs g schedule).pc i).raised) =
      (trials.map (fun t => (w.outcome t seed g).1.map norm)).findSome? raisedBy := by
    have h1 : trials.map (fun t => (w.outcome t seed g).1.map norm) =
        (List.finRange trials.length).map (fun i => (w.outcome trials[i] seed g).1.map norm) := by
      refine List.ext_getElem (by simp) ?_
      intro i h1 h2
      simp
    rw [h1, List.findSome?_map]
    congr 1
    funext i
    rw [(hend i).1]
    simp only [Function.comp]
    rcases (w.outcome trials[i] seed g).1 with e | r <;> rfl
  unfold loadParallel
  simp only [hfind]
  rcases hf : (trials.map (fun t => (w.outcome t seed g).1.map norm)).findSome?
      raisedBy with _ | e
  · have hok : ∀ t ∈ trials, ∃ r, (w.outcome t seed g).1 = .ok r := by
      intro t ht
      rw [List.findSome?_eq_none_iff] at hf
      have h := hf _ (List.mem_map_of_mem ht)
      rcases ho : (w.outcome t seed g).1 with e | r
      · rw [ho] at h
        cases h
      · exact ⟨r, rfl⟩
    have hres : ∃ results : List ρ, List.Forall₂ (fun t r => (w.outcome t seed g).1 = .ok r)
        trials results := by
      clear hf hfind hend hinv hdone schedule hread hfs hnd hne hmem
      induction trials with
      | nil => exact ⟨[], .nil⟩
      | cons t rest ih =>
        obtain ⟨r, hr⟩ := hok t (by simp)
        obtain ⟨rs, hrs⟩ := ih (fun u hu => hok u (by simp [hu]))
        exact ⟨r :: rs, .cons hr hrs⟩
    obtain ⟨results, hres⟩ := hres
    have hrows : trials.map (fun t => (w.outcome t seed g).1.map norm) =
        (results.map norm).map (fun r => (.ok r : Except PyErr ρ)) := by
      clear hf hfind hend hinv hdone schedule hread hfs hnd hne hmem hok
      induction hres with
      | nil => rfl
      | cons h _ ih => rw [List.map_cons, ih, h]; rfl
    simp only
    rw [hrows, allRows_ok, loadSequential_complete w norm seed _ g trials hne results]
    rw [List.forall₂_iff_get] at hres ⊢
    refine ⟨hres.1, ?_⟩
    intro i h1 h2
    have h3 := hres.2 i h1 h2
    exact ⟨(hend ⟨i, h1⟩).2 _ h3, (hread _ (List.getElem_mem h1) _ h3).1⟩
  · simp only
    exact (allRows_error_of_findSome _ e hf).symm

/-- A finished Beam run whose evaluations all start with the same generators, from an empty
directory. -/
theorem loadBeam_fresh (w : World ρ γ) (hw : HexDigest w) (csv : FrameCsv ρ) (norm : ρ → ρ) (seed : Int)
    (g : γ) (trials : List TrialConfig) (hne : trials ≠ []) (fs : Files)
    (hnd : (trials.map resultsPath).Nodup) (hfs : ∀ t ∈ trials, fs (resultsPath t) = none)
    (row : TrialConfig → ρ) (hrow : ∀ t ∈ trials, (w.outcome t seed g).1 = .ok (row t))
    (hread : ∀ t ∈ trials, w.readCsv (w.toCsv (row t)) = .ok (norm (row t)) ∧
      norm (norm (row t)) = norm (row t) ∧ TornUnreadable w (w.toCsv (row t)))
    (hcsv : ∀ rows, (∀ r' ∈ rows, ∃ t ∈ trials, SameRow norm (row t) r') →
      csv.readCsv (csv.toCsv rows) = .ok (rows.map norm))
    (evs : List (Event γ (Fin trials.length))) (hevs : ∀ i g', Event.restart i g' ∈ evs → g' = g)
    (hdone : BeamFinished w trials seed fs g evs)
    (tree : CombineTree (Fin trials.length)) (htree : FedOnce tree) (temp : String) :
    ∃ rows fs', loadBeam w csv trials seed fs g evs tree temp = some (.ok rows, fs') ∧
      rows.Perm (trials.map (fun t => norm (row t))) ∧ rows.map norm = rows ∧
      csv.readCsv (csv.toCsv rows) = .ok rows := by
  have hmem : ∀ i : Fin trials.length, trials[i] ∈ trials := fun i => List.getElem_mem _
  have hinv : SysInv w (fun i : Fin trials.length => trials[i]) (fun _ g' => g' = g)
      (fun i => .ok (row trials[i])) (runBeam w trials seed fs g evs) := by
    refine sysRun_inv w hw _ seed (paths_inj hnd) _ _ ?_ ?_ _ _ ?_ ?_
    · rintro i g' rfl
      exact hrow _ (hmem i)
    · intro i r hr
      cases hr
      exact (hread _ (hmem i)).2.2
    · intro i
      have h0 : Recoverable w (.ok (row trials[i])) (fs (resultsPath trials[i])) := by
        rw [hfs _ (hmem i)]; trivial
      exact ⟨rfl, h0⟩
    · intro ev hev
      cases ev with
      | step i => trivial
      | restart i g' => exact hevs i g' hev
  have hend : ∀ i : Fin trials.length, ∃ r', SameRow norm (row trials[i]) r' ∧
      (runBeam w trials seed fs g evs).pc i = .done (.ok r') := by
    intro i
    obtain ⟨res, hres⟩ := hdone i
    have hi := hinv i
    rw [hres] at hi
    rcases hi.1 with h | ⟨r, h1, h2⟩
    · exact ⟨row trials[i], Or.inl rfl, by rw [hres, h]⟩
    · cases h1
      rw [(hread _ (hmem i)).1] at h2
      exact ⟨norm (row trials[i]), Or.inr rfl, by rw [hres, h2]⟩
  choose R' hR2 hR3 using hend
  have hmap : (accumulate tree).mapM (fun i => ((runBeam w trials seed fs g evs).pc i).result) =
      some ((accumulate tree).map (fun i => .ok (R' i))) :=
    option_mapM_some _ _ _ (fun i _ => by rw [hR3 i]; rfl)
  have hid : ((accumulate tree).map (fun i => (Except.ok (R' i) : Except PyErr ρ))).mapM id =
      .ok ((accumulate tree).map R') := by
    have := except_mapM_id_ok ((accumulate tree).map R')
    rwa [List.map_map] at this
  have hperm := accumulate_perm htree
  have hnonempty : ((accumulate tree).map R').isEmpty = false := by
    rw [List.isEmpty_eq_false_iff]
    intro h
    have h2 := hperm.length_eq
    rw [List.map_eq_nil_iff.1 h, List.length_finRange] at h2
    exact hne (List.length_eq_zero_iff.1 h2.symm)
  have hrows : ∀ r' ∈ (accumulate tree).map R', ∃ t ∈ trials, SameRow norm (row t) r' := by
    intro r' hr'
    obtain ⟨i, -, rfl⟩ := List.mem_map.1 hr'
    exact ⟨trials[i], hmem i, hR2 i⟩
  have hnorm : ((accumulate tree).map R').map norm =
      (accumulate tree).map (fun i => norm (row trials[i])) := by
    rw [List.map_map]
    refine List.map_congr_left ?_
    intro i _
    simp only [Function.comp]
    rcases hR2 i with h | h
    · rw [h]
    · rw [h]; exact (hread _ (hmem i)).2.1
  have hidem : ((accumulate tree).map (fun i => norm (row trials[i]))).map norm =
      (accumulate tree).map (fun i => norm (row trials[i])) := by
    rw [List.map_map]
    exact List.map_congr_left (fun i _ => (hread _ (hmem i)).2.1)
  refine ⟨(accumulate tree).map (fun i => norm (row trials[i])),
    setFile (runBeam w trials seed fs g evs).fs (tempResultPath temp)
      (some (csv.toCsv ((accumulate tree).map R'))), ?_, ?_, hidem, ?_⟩
  · simp only [loadBeam, hmap, Option.map_some, hid, bind, Except.bind, concatFrames, hnonempty,
      Bool.false_eq_true, if_false, setFile_same, hcsv _ hrows, hnorm]
  · refine (hperm.map _).trans (List.Perm.of_eq ?_)
    refine List.ext_getElem (by simp) ?_
    intro i h1 h2
    simp
  · rw [hcsv, hidem]
    intro r' hr'
    obtain ⟨i, -, rfl⟩ := List.mem_map.1 hr'
    exact ⟨trials[i], hmem i, Or.inr rfl⟩

/-- Several steps of one evaluation. -/
theorem sysRun_steps {ι : Type} [DecidableEq ι] (w : World ρ γ) (cfg : ι → TrialConfig) (seed : Int)
    (i : ι) (n : Nat) : ∀ s : Sys ρ γ ι,
    ((sysRun w cfg seed s (List.replicate n (.step i))).fs,
      (sysRun w cfg seed s (List.replicate n (.step i))).pc i,
      (sysRun w cfg seed s (List.replicate n (.step i))).gen i) =
        (trialStep w (cfg i) seed)^[n] (s.fs, s.pc i, s.gen i) ∧
    ∀ j, j ≠ i → (sysRun w cfg seed s (List.replicate n (.step i))).pc j = s.pc j := by
  induction n with
  | zero => intro s; exact ⟨rfl, fun _ _ => rfl⟩
  | succ n ih =>
    intro s
    obtain ⟨h1, h2⟩ := ih (sysStep w cfg seed s (.step i))
    have h3 : sysRun w cfg seed s (List.replicate (n + 1) (.step i)) =
        sysRun w cfg seed (sysStep w cfg seed s (.step i)) (List.replicate n (.step i)) := by
      rw [List.replicate_succ]; rfl
    rw [h3]
    refine ⟨?_, ?_⟩
    · rw [h1, Function.iterate_succ_apply]
      simp [sysStep]
    · intro j hj
      rw [h2 j hj]
      simp [sysStep, hj]

/-- Workers can finish. -/
theorem workers_can_finish (w : World ρ γ) (trials : List TrialConfig) (seed : Int) (fs : Files) (g : γ) :
    ∃ schedule, ∀ i, ∃ res, (runWorkers w trials seed fs g schedule).pc i = .done res := by
  have key : ∀ l : List (Fin trials.length), l.Nodup → ∀ s : Sys ρ γ (Fin trials.length),
      (∀ i ∈ l, s.pc i = .start) → ∃ schedule : List (Fin trials.length),
        (∀ i ∈ l, ∃ res, (sysRun w (fun i : Fin trials.length => trials[i]) seed s
          (schedule.map .step)).pc i = .done res) ∧
        ∀ i, i ∉ l → (sysRun w (fun i : Fin trials.length => trials[i]) seed s
          (schedule.map .step)).pc i = s.pc i := by
    intro l
    induction l with
    | nil => intro _ s _; exact ⟨[], by simp, fun _ _ => rfl⟩
    | cons i l ih =>
      intro hnd s hs
      rw [List.nodup_cons] at hnd
      obtain ⟨n, hn⟩ := steps_evaluate w trials[i] seed s.fs (s.gen i)
      obtain ⟨h1, h2⟩ := sysRun_steps w (fun i : Fin trials.length => trials[i]) seed i n s
      rw [hs i (by simp), hn] at h1
      obtain ⟨sch, k1, k2⟩ := ih hnd.2 (sysRun w (fun i : Fin trials.length => trials[i]) seed s
        (List.replicate n (.step i))) (by
          intro j hj
          rw [h2 j (fun e => hnd.1 (e ▸ hj))]
          exact hs j (by simp [hj]))
      have h3 : sysRun w (fun i : Fin trials.length => trials[i]) seed s
          ((List.replicate n i ++ sch).map .step) =
          sysRun w (fun i : Fin trials.length => trials[i]) seed
            (sysRun w (fun i : Fin trials.length => trials[i]) seed s (List.replicate n (.step i)))
            (sch.map .step) := by
        simp only [List.map_append, List.map_replicate, sysRun, List.foldl_append]
      refine ⟨List.replicate n i ++ sch, ?_, ?_⟩
      · intro j hj
        rw [h3]
        rcases List.mem_cons.1 hj with rfl | hj
        · rw [k2 j hnd.1]
          exact ⟨_, (congrArg (fun x => x.2.1) h1)⟩
        · exact k1 j hj
      · intro j hj
        rw [h3, k2 j (fun h => hj (by simp [h])), h2 j (fun h => hj (by simp [h]))]
  obtain ⟨sch, h, -⟩ := key (List.finRange trials.length) (List.nodup_finRange _)
    ⟨fs, fun _ => .start, fun _ => g⟩ (fun _ _ => rfl)
  exact ⟨sch, fun i => h i (List.mem_finRange i)⟩

end general

variable {S C : Type}

/-- One data set: all trials of a part of the design. -/
theorem chain_dataSet (base : World Row (Nat → Nat)) (E : TrialEnv S C) (points : Int → PointSource)
    (D : Dict String DataSet) (all : List (TrialTemplate Nat)) (dir analysisType : String) (seed : Int)
    (name : String) (ds : DataSet) (hds : dictLookup D name = .ok ds)
    (text : TrialTemplate Nat × Nat → String) (ts : List (TrialTemplate Nat)) :
    ∀ (s : Nat) (g : Nat → Nat), (∀ k, k < ts.length → all[s + k]? = ts[k]?) →
    chainRows (driverWorld base E points D all) seed ((ts.zipIdx s).map (fun ti =>
        (⟨dir, name, text ti, (ti.2 : Int), analysisType⟩ : TrialConfig))) g =
      (ts.zipIdx s).map (fun ti =>
        (designOutcome { E with points := points seed } name ds ti.1 analysisType (g ti.2)).1) ∧
    ∀ i, chainState (driverWorld base E points D all) seed ((ts.zipIdx s).map (fun ti =>
        (⟨dir, name, text ti, (ti.2 : Int), analysisType⟩ : TrialConfig))) g i =
      if i < s then g i else match ts[i - s]? with
        | none => g i
        | some t => (designOutcome { E with points := points seed } name ds t analysisType (g i)).2 := by
  induction ts with
  | nil =>
    intro s g _
    refine ⟨rfl, fun i => ?_⟩
    simp [chainState]
  | cons t ts ih =>
    intro s g hall
    have h0 : all[s]? = some t := by simpa using hall 0 (by simp)
    have hout : driverOutcome E points D all ⟨dir, name, text (t, s), ((s : Nat) : Int), analysisType⟩
        seed g = ((designOutcome { E with points := points seed } name ds t analysisType (g s)).1,
          fun i => if i = s then
            (designOutcome { E with points := points seed } name ds t analysisType (g s)).2 else g i) := by
      simp only [driverOutcome, TrialEnv.seeded, hds, Int.toNat_natCast, h0]
    obtain ⟨h1, h2⟩ := ih (s + 1) (fun i => if i = s then
      (designOutcome { E with points := points seed } name ds t analysisType (g s)).2 else g i) (by
        intro k hk
        have := hall (k + 1) (by simpa using hk)
        rw [List.getElem?_cons_succ] at this
        rw [← this]
        congr 1
        omega)
    constructor
    · simp only [List.zipIdx_cons, List.map_cons, chainRows]
      rw [show (driverWorld base E points D all).outcome = driverOutcome E points D all from rfl, hout,
        h1]
      congr 1
      refine List.map_congr_left ?_
      rintro ⟨u, i⟩ hu
      have := List.le_snd_of_mem_zipIdx hu
      simp only at this ⊢
      rw [if_neg (by omega)]
    · intro i
      simp only [List.zipIdx_cons, List.map_cons, chainState]
      rw [show (driverWorld base E points D all).outcome = driverOutcome E points D all from rfl, hout,
        h2 i]
      rcases lt_trichotomy i s with h | h | h
      · rw [if_pos (by omega), if_pos h, if_neg (by omega)]
      · subst h
        simp
      · rw [if_neg (by omega), if_neg (by omega), if_neg (by omega)]
        obtain ⟨k, rfl⟩ : ∃ k, i = s + 1 + k := ⟨i - (s + 1), by omega⟩
        rw [show s + 1 + k - (s + 1) = k by omega, show s + 1 + k - s = k + 1 by omega,
          List.getElem?_cons_succ]

theorem chain_driver (base : World Row (Nat → Nat)) (E : TrialEnv S C) (points : Int → PointSource)
    (D : Dict String DataSet) (hD : (D.map (·.1)).Nodup) (ts : List (TrialTemplate Nat))
    (dir analysisType : String) (seed : Int) (part : Dict String DataSet) :
    ∀ g, (∀ nd ∈ part, nd ∈ D) →
    chainRows (driverWorld base E points D ts) seed ((part.map (·.1)).flatMap
        (experimentTrials dir analysisType (driverDescriptors E.text D ts))) g =
      continuingRows { E with points := points seed } analysisType part (withGenerators ts g) := by
  induction part with
  | nil => intro g _; rfl
  | cons nd rest ih =>
    intro g hsub
    have hl := dictLookup_mem D hD nd.1 nd.2 (hsub nd (by simp))
    have hexp : experimentTrials dir analysisType (driverDescriptors E.text D ts) nd.1 =
        ts.zipIdx.map (fun ti => (⟨dir, nd.1, trialText E.text nd.2 ti.1, (ti.2 : Int), analysisType⟩ :
          TrialConfig)) := by
      simp only [experimentTrials, driverDescriptors, List.map_map, Function.comp_def, hl]
    obtain ⟨h1, h2⟩ := chain_dataSet base E points D ts dir analysisType seed nd.1 nd.2 hl
      (fun ti => trialText E.text nd.2 ti.1) ts 0 g (fun k _ => by rw [Nat.zero_add])
    rw [List.map_cons, List.flatMap_cons, chainRows_append, hexp, h1,
      ih _ (fun x hx => hsub x (by simp [hx]))]
    simp only [continuingRows, withGenerators, List.map_map, Function.comp_def]
    congr 2
    refine List.map_congr_left ?_
    rintro ⟨t, i⟩ hti
    have hti2 := List.mem_zipIdx_iff_getElem?.1 hti
    simp only at hti2 ⊢
    rw [h2 i, if_neg (by omega), Nat.sub_zero, hti2]

theorem driver_outcomes (base : World Row (Nat → Nat)) (E : TrialEnv S C) (points : Int → PointSource)
    (D : Dict String DataSet) (hD : (D.map (·.1)).Nodup) (ts : List (TrialTemplate Nat))
    (dir analysisType : String) (seed : Int) (g : Nat → Nat) (norm : Row → Row) :
    ((D.map (·.1)).flatMap
        (experimentTrials dir analysisType (driverDescriptors E.text D ts))).map
      (fun t => ((driverWorld base E points D ts).outcome t seed g).1.map norm) =
      (freshRows { E with points := points seed } analysisType D (withGenerators ts g)).map
        (fun r => r.map norm) := by
  rw [List.map_flatMap, freshRows, List.map_flatMap, List.flatMap_map]
  refine List.flatMap_congr ?_
  intro nd hnd
  have hl := dictLookup_mem D hD nd.1 nd.2 hnd
  simp only [experimentTrials, driverDescriptors, withGenerators, List.map_map, Function.comp_def]
  refine List.map_congr_left ?_
  rintro ⟨t, i⟩ hti
  have hti2 := List.mem_zipIdx_iff_getElem?.1 hti
  simp only at hti2
  simp only [driverWorld, driverOutcome, TrialEnv.seeded, hl, Int.toNat_natCast, hti2]

/-- No trial is removed, and no two write the same file. -/
theorem driver_design (T : FloatText) (D : Dict String DataSet) (hD : (D.map (·.1)).Nodup)
    (hnames : ∀ nd ∈ D, ':' ∉ nd.1.toList ∧ '/' ∉ nd.1.toList) (ts : List (TrialTemplate Nat))
    (htext : ∀ nd ∈ D, (ts.map (trialText T nd.2)).Nodup) (dir analysisType : String) :
    designTrials dir analysisType (driverDescriptors T D ts) (D.map (·.1)) =
      (D.map (·.1)).flatMap (experimentTrials dir analysisType (driverDescriptors T D ts)) ∧
    (((D.map (·.1)).flatMap
      (experimentTrials dir analysisType (driverDescriptors T D ts))).map resultsPath).Nodup := by
  have hkeys : (((D.map (·.1)).flatMap
      (experimentTrials dir analysisType (driverDescriptors T D ts))).map trialKey).Nodup := by
    rw [List.map_flatMap, List.nodup_flatMap]
    constructor
    · intro n hn
      obtain ⟨nd, hnd, rfl⟩ := List.mem_map.1 hn
      have hl := dictLookup_mem D hD nd.1 nd.2 hnd
      have h2 : (experimentTrials dir analysisType (driverDescriptors T D ts) nd.1).map trialKey =
          (ts.map (trialText T nd.2)).map (Prod.mk nd.1) := by
        simp only [experimentTrials, driverDescriptors, List.map_map, Function.comp_def, hl, trialKey]
        refine List.ext_getElem (by simp) ?_
        intro i h1 h2
        simp
      rw [h2]
      exact (htext nd hnd).map (Prod.mk_right_injective nd.1)
    · refine hD.imp ?_
      intro a b hab
      rw [Function.onFun, List.disjoint_left]
      intro x hx hx'
      obtain ⟨c, hc, rfl⟩ := List.mem_map.1 hx
      obtain ⟨c', hc', h⟩ := List.mem_map.1 hx'
      obtain ⟨d, -, rfl⟩ := List.mem_map.1 hc
      obtain ⟨d', -, rfl⟩ := List.mem_map.1 hc'
      exact hab (congrArg Prod.fst h).symm
  have hmem : ∀ c ∈ (D.map (·.1)).flatMap
      (experimentTrials dir analysisType (driverDescriptors T D ts)),
      (':' ∉ c.dataSetName.toList ∧ '/' ∉ c.dataSetName.toList) ∧ c.experimentDir = dir := by
    intro c hc
    obtain ⟨h1, h2⟩ := mem_generated hc
    obtain ⟨nd, hnd, h3⟩ := List.mem_map.1 h1
    rw [← h3]
    exact ⟨hnames nd hnd, h2⟩
  rw [List.Nodup, List.pairwise_map] at hkeys
  constructor
  · unfold designTrials
    apply removeDuplicatesFrom_of_nodup _ _ _ (by simp)
    rw [List.Nodup, List.pairwise_map]
    refine hkeys.imp_of_mem ?_
    intro a b ha hb hab e
    exact hab ((trialName_inj (hmem a ha).1.1 (hmem b hb).1.1).1 e)
  · rw [List.Nodup, List.pairwise_map]
    refine hkeys.imp_of_mem ?_
    intro a b ha hb hab e
    exact hab (resultsPath_inj ((hmem a ha).2.trans (hmem b hb).2.symm) (hmem a ha).1.2
      (hmem b hb).1.2 e)

theorem driver_all_ne (T : FloatText) (D : Dict String DataSet) (hDne : D ≠ [])
    (ts : List (TrialTemplate Nat)) (hts : ts ≠ []) (dir analysisType : String) :
    (D.map (·.1)).flatMap (experimentTrials dir analysisType (driverDescriptors T D ts)) ≠ [] := by
  intro h
  rw [List.flatMap_eq_nil_iff] at h
  obtain ⟨nd, hnd⟩ := List.exists_mem_of_ne_nil _ hDne
  have h2 := h nd.1 (List.mem_map_of_mem hnd)
  simp only [experimentTrials, driverDescriptors, List.map_eq_nil_iff, List.zipIdx_eq_nil_iff] at h2
  exact hts h2

/-! ## C83 -/

/-- **C83 (the rows on one core).** Run on one core and an empty directory, with descriptions that
differ, the driver returns exactly the results of all trials on all data sets: those of one data set
after those of another, in the order of the design, each trial drawing from its own generator, which
continues from data set to data set.  The first exception ends the run.  These rows are what is
written. -/
theorem C83_one_core (base : World Row (Nat → Nat)) (hw : HexDigest base) (csv : FrameCsv Row)
    (E : TrialEnv S C) (points : Int → PointSource)
    (D : Dict String DataSet) (hD : (D.map (·.1)).Nodup) (hDne : D ≠ [])
    (hnames : ∀ nd ∈ D, ':' ∉ nd.1.toList ∧ '/' ∉ nd.1.toList)
    (ts : List (TrialTemplate Nat)) (hts : ts ≠ [])
    (htext : ∀ nd ∈ D, (ts.map (trialText E.text nd.2)).Nodup)
    (dir analysisType : String) (seed : Int) (outputFile : String) (g : Nat → Nat) :
    ∃ fs', driverExecute base csv E points D ts dir analysisType seed outputFile (fun _ => none) g
        .oneCore = some (allRows (continuingRows { E with points := points seed } analysisType D
          (withGenerators ts g)), fs') ∧
      ∀ rows, allRows (continuingRows { E with points := points seed } analysisType D (withGenerators ts g)) =
        .ok rows → fs' outputFile = some (csv.toCsv rows) := by
  obtain ⟨h1, h2⟩ := driver_design E.text D hD hnames ts htext dir analysisType
  have h3 := loadSequential_fresh (driverWorld base E points D ts) hw seed _
    (driver_all_ne E.text D hDne ts hts dir analysisType) (fun _ => none) g h2 (fun _ _ => rfl)
  rw [chain_driver base E points D hD ts dir analysisType seed D g (fun _ h => h)] at h3
  unfold driverExecute execute
  simp only [h1]
  rcases hl : loadSequential (driverWorld base E points D ts) ((D.map (·.1)).flatMap
    (experimentTrials dir analysisType (driverDescriptors E.text D ts))) seed (fun _ => none) g with
    ⟨e | rows, fs', g'⟩
  · rw [hl] at h3
    rw [← h3]
    simp only [hl]
    exact ⟨fs', rfl, fun rows h => by cases h⟩
  · rw [hl] at h3
    rw [← h3]
    simp only [hl]
    refine ⟨_, rfl, ?_⟩
    intro rows' h
    cases h
    exact setFile_same _ _ _

/-- **C83 (the rows on several cores).** Run by workers that have finished, on an empty directory and
with descriptions that differ, the driver returns the results of all trials on all data sets as they
are read back, in the order of the design, whatever the interleaving.  Each trial starts with a copy
of its generator on every data set.  Of several exceptions the first is taken. -/
theorem C83_many_cores (base : World Row (Nat → Nat)) (hw : HexDigest base) (csv : FrameCsv Row)
    (E : TrialEnv S C) (points : Int → PointSource)
    (D : Dict String DataSet) (hD : (D.map (·.1)).Nodup) (hDne : D ≠ [])
    (hnames : ∀ nd ∈ D, ':' ∉ nd.1.toList ∧ '/' ∉ nd.1.toList)
    (ts : List (TrialTemplate Nat)) (hts : ts ≠ [])
    (htext : ∀ nd ∈ D, (ts.map (trialText E.text nd.2)).Nodup)
    (dir analysisType : String) (seed : Int) (norm : Row → Row)
    (hread : ∀ row, DesignGives E points analysisType seed D ts row →
      base.readCsv (base.toCsv row) = .ok (norm row) ∧ TornUnreadable base (base.toCsv row))
    (outputFile : String) (g : Nat → Nat)
    (schedule : List (Fin
      (designTrials dir analysisType (driverDescriptors E.text D ts) (D.map (·.1))).length))
    (hdone : ∀ i, ∃ res, (runWorkers (driverWorld base E points D ts)
      (designTrials dir analysisType (driverDescriptors E.text D ts) (D.map (·.1))) seed
      (fun _ => none) g schedule).pc i = .done res) :
    ∃ fs', driverExecute base csv E points D ts dir analysisType seed outputFile (fun _ => none) g
        (.cores schedule) = some (allRows ((freshRows { E with points := points seed } analysisType D
          (withGenerators ts g)).map (fun r => r.map norm)), fs') ∧
      ∀ rows, allRows ((freshRows { E with points := points seed } analysisType D (withGenerators ts g)).map
        (fun r => r.map norm)) = .ok rows → fs' outputFile = some (csv.toCsv rows) := by
  obtain ⟨h1, h2⟩ := driver_design E.text D hD hnames ts htext dir analysisType
  have h3 := loadParallel_fresh (driverWorld base E points D ts) hw norm seed g _
    (by rw [h1]; exact driver_all_ne E.text D hDne ts hts dir analysisType) (fun _ => none)
    (by rw [h1]; exact h2) (fun _ _ => rfl) (by
      intro c hc r hr
      rw [h1] at hc
      obtain ⟨nd, hnd, t, ht, e1, e2, e3, -, e5⟩ :=
        mem_driver_trials E.text D hD ts dir analysisType c hc
      have h := (driver_resultOf base E points D ts seed c nd t e1 e2 e3 r).1 ⟨g, hr⟩
      rw [e5] at h
      exact hread r ⟨nd, hnd, t, ht, h⟩) schedule hdone
  have h4 := driver_outcomes base E points D hD ts dir analysisType seed g norm
  rw [← h1] at h4
  rw [h4] at h3
  unfold driverExecute execute
  rcases hl : loadParallel (driverWorld base E points D ts)
    (designTrials dir analysisType (driverDescriptors E.text D ts) (D.map (·.1))) seed (fun _ => none) g
    schedule with ⟨e | rows, fs', g'⟩
  · rw [hl] at h3
    rw [← h3]
    simp only [hl]
    exact ⟨fs', rfl, fun rows h => by cases h⟩
  · rw [hl] at h3
    rw [← h3]
    simp only [hl]
    refine ⟨_, rfl, ?_⟩
    intro rows' h
    cases h
    exact setFile_same _ _ _

/-- **C83 (the rows on Beam).** A finished Beam run on an empty directory, with descriptions that differ
and evaluations that all start with the generators as they were created, returns the rows of several
cores in some order, if all trials yield rows.  The output file has these rows. -/
theorem C83_beam_rows (base : World Row (Nat → Nat)) (hw : HexDigest base) (csv : FrameCsv Row)
    (E : TrialEnv S C) (points : Int → PointSource)
    (D : Dict String DataSet) (hD : (D.map (·.1)).Nodup) (hDne : D ≠ [])
    (hnames : ∀ nd ∈ D, ':' ∉ nd.1.toList ∧ '/' ∉ nd.1.toList)
    (ts : List (TrialTemplate Nat)) (hts : ts ≠ [])
    (htext : ∀ nd ∈ D, (ts.map (trialText E.text nd.2)).Nodup)
    (dir analysisType : String) (seed : Int) (norm : Row → Row)
    (hread : ∀ row, DesignGives E points analysisType seed D ts row →
      base.readCsv (base.toCsv row) = .ok (norm row) ∧ norm (norm row) = norm row ∧
      TornUnreadable base (base.toCsv row))
    (hcsv : ∀ rows : List Row, (∀ r' ∈ rows, ∃ r, DesignGives E points analysisType seed D ts r ∧
      SameRow norm r r') → csv.readCsv (csv.toCsv rows) = .ok (rows.map norm))
    (outputFile : String) (g : Nat → Nat) (trials : List TrialConfig)
    (htrials : trials = designTrials dir analysisType (driverDescriptors E.text D ts) (D.map (·.1)))
    (evs : List (Event (Nat → Nat) (Fin trials.length)))
    (hevs : ∀ i g', Event.restart i g' ∈ evs → g' = g)
    (hdone : BeamFinished (driverWorld base E points D ts) trials seed (fun _ => none) g evs)
    (tree : CombineTree (Fin trials.length)) (htree : FedOnce tree) (temp : String) (results : List Row)
    (hresults : freshRows { E with points := points seed } analysisType D (withGenerators ts g) =
      results.map .ok) :
    ∃ rows fs', driverExecute base csv E points D ts dir analysisType seed outputFile (fun _ => none) g
        (.beam (htrials ▸ evs) (htrials ▸ tree) temp) = some (.ok rows, fs') ∧
      rows.Perm (results.map norm) ∧
      ∃ txt, fs' outputFile = some txt ∧ csv.readCsv txt = .ok rows := by
  subst htrials
  obtain ⟨h1, h2⟩ := driver_design E.text D hD hnames ts htext dir analysisType
  have h4 := driver_outcomes base E points D hD ts dir analysisType seed g id
  have hid : (fun r : Except PyErr Row => r.map id) = id := by
    funext r
    rcases r with e | r <;> rfl
  rw [hid, List.map_id, hresults, ← h1] at h4
  have hgive : ∀ c ∈ designTrials dir analysisType (driverDescriptors E.text D ts) (D.map (·.1)),
      ∀ r, ((driverWorld base E points D ts).outcome c seed g).1 = .ok r →
      DesignGives E points analysisType seed D ts r := by
    intro c hc r hr
    rw [h1] at hc
    obtain ⟨nd, hnd, t, ht, e1, e2, e3, -, e5⟩ :=
      mem_driver_trials E.text D hD ts dir analysisType c hc
    have h := (driver_resultOf base E points D ts seed c nd t e1 e2 e3 r).1 ⟨g, hr⟩
    rw [e5] at h
    exact ⟨nd, hnd, t, ht, h⟩
  have hmapid : ∀ x : Except PyErr Row, x.map id = x := fun x => by rcases x with e | r <;> rfl
  have hrow : ∀ c ∈ designTrials dir analysisType (driverDescriptors E.text D ts) (D.map (·.1)),
      ∃ r, ((driverWorld base E points D ts).outcome c seed g).1 = .ok r := by
    intro c hc
    have h : (((driverWorld base E points D ts).outcome c seed g).1.map id) ∈
        (designTrials dir analysisType (driverDescriptors E.text D ts) (D.map (·.1))).map
          (fun t => ((driverWorld base E points D ts).outcome t seed g).1.map id) :=
      List.mem_map.2 ⟨c, hc, rfl⟩
    rw [h4, hmapid] at h
    obtain ⟨r, -, hr⟩ := List.mem_map.1 h
    exact ⟨r, hr.symm⟩
  let row : TrialConfig → Row := fun c =>
    match ((driverWorld base E points D ts).outcome c seed g).1 with
    | .ok r => r
    | .error _ => []
  have hrow2 : ∀ c ∈ designTrials dir analysisType (driverDescriptors E.text D ts) (D.map (·.1)),
      ((driverWorld base E points D ts).outcome c seed g).1 = .ok (row c) := by
    intro c hc
    obtain ⟨r, hr⟩ := hrow c hc
    simp only [row, hr]
  have hres : (designTrials dir analysisType (driverDescriptors E.text D ts) (D.map (·.1))).map row =
      results := by
    have h5 : (designTrials dir analysisType (driverDescriptors E.text D ts) (D.map (·.1))).map
          (fun t => ((driverWorld base E points D ts).outcome t seed g).1.map id) =
        ((designTrials dir analysisType (driverDescriptors E.text D ts) (D.map (·.1))).map row).map
          (fun r => (.ok r : Except PyErr Row)) := by
      rw [List.map_map]
      refine List.map_congr_left ?_
      intro c hc
      rw [hmapid, hrow2 c hc]
      rfl
    rw [h5] at h4
    exact List.map_injective_iff.2 (fun a b h => by injection h) h4
  obtain ⟨rows, fs', k1, k2, k3, k4⟩ := loadBeam_fresh (driverWorld base E points D ts) hw csv norm
    seed g _ (by rw [h1]; exact driver_all_ne E.text D hDne ts hts dir analysisType) (fun _ => none)
    (by rw [h1]; exact h2) (fun _ _ => rfl) row hrow2
    (fun c hc => hread _ (hgive c hc _ (hrow2 c hc))) (by
      intro rows hrows
      refine hcsv rows ?_
      intro r' hr'
      obtain ⟨c, hc, h⟩ := hrows r' hr'
      exact ⟨row c, hgive c hc _ (hrow2 c hc), h⟩) evs hevs hdone tree htree temp
  refine ⟨rows, setFile fs' outputFile (some (csv.toCsv rows)), ?_, ?_, csv.toCsv rows,
    setFile_same _ _ _, k4⟩
  · unfold driverExecute execute
    simp only [k1, Option.map_some]
  · rw [← hres, List.map_map]
    exact k2

/-- **C83 (a single data set).** On a data design with one data set the number of cores makes no
difference, if rows are read back as they were written. -/
theorem C83_cores_agree (base : World Row (Nat → Nat)) (hw : HexDigest base) (csv : FrameCsv Row)
    (E : TrialEnv S C) (points : Int → PointSource) (nd : String × DataSet)
    (hname : ':' ∉ nd.1.toList ∧ '/' ∉ nd.1.toList)
    (ts : List (TrialTemplate Nat)) (hts : ts ≠ []) (htext : (ts.map (trialText E.text nd.2)).Nodup)
    (dir analysisType : String) (seed : Int)
    (hread : ∀ row, DesignGives E points analysisType seed [nd] ts row →
      base.readCsv (base.toCsv row) = .ok row ∧ TornUnreadable base (base.toCsv row))
    (outputFile : String) (g : Nat → Nat)
    (schedule : List (Fin
      (designTrials dir analysisType (driverDescriptors E.text [nd] ts) [nd.1]).length))
    (hdone : ∀ i, ∃ res, (runWorkers (driverWorld base E points [nd] ts)
      (designTrials dir analysisType (driverDescriptors E.text [nd] ts) [nd.1]) seed
      (fun _ => none) g schedule).pc i = .done res) :
    ∃ res fs1 fs2,
      driverExecute base csv E points [nd] ts dir analysisType seed outputFile (fun _ => none) g
        .oneCore = some (res, fs1) ∧
      driverExecute base csv E points [nd] ts dir analysisType seed outputFile (fun _ => none) g
        (.cores schedule) = some (res, fs2) ∧
      ((∃ rows, res = .ok rows) → fs1 outputFile = fs2 outputFile) := by
  have hD : (([nd] : Dict String DataSet).map (·.1)).Nodup := List.nodup_singleton _
  have hn : ∀ x ∈ [nd], ':' ∉ x.1.toList ∧ '/' ∉ x.1.toList := by
    intro x hx
    rw [List.mem_singleton.1 hx]; exact hname
  have ht : ∀ x ∈ [nd], (ts.map (trialText E.text x.2)).Nodup := by
    intro x hx
    rw [List.mem_singleton.1 hx]; exact htext
  obtain ⟨fs1, h1, h2⟩ := C83_one_core base hw csv E points [nd] hD (by simp) hn ts hts ht dir
    analysisType seed outputFile g
  obtain ⟨fs2, h3, h4⟩ := C83_many_cores base hw csv E points [nd] hD (by simp) hn ts hts ht dir
    analysisType seed id hread outputFile g schedule hdone
  have he : (freshRows { E with points := points seed } analysisType [nd] (withGenerators ts g)).map
      (fun r => r.map id) = continuingRows { E with points := points seed } analysisType [nd]
        (withGenerators ts g) := by
    have hid : (fun r : Except PyErr Row => r.map id) = id := by
      funext r
      rcases r with e | r <;> rfl
    rw [hid, List.map_id]
    simp only [freshRows, continuingRows, List.flatMap_cons, List.flatMap_nil]
  rw [he] at h3 h4
  refine ⟨_, fs1, fs2, h1, h3, ?_⟩
  rintro ⟨rows, hrows⟩
  rw [h2 rows hrows, h4 rows hrows]

/-! ## Examples -/

theorem exRunDesign_names : ∀ nd ∈ exRunDesign, ':' ∉ nd.1.toList ∧ '/' ∉ nd.1.toList := by
  intro nd hnd
  simp only [exRunDesign, List.mem_cons, List.not_mem_nil, or_false] at hnd
  rcases hnd with rfl | rfl <;> decide +kernel

theorem exRunDesign_publishers : ∀ nd ∈ exRunDesign, nd.2.data ≠ [] := by
  intro nd hnd
  simp only [exRunDesign, List.mem_cons, List.not_mem_nil, or_false] at hnd
  rcases hnd with rfl | rfl <;> simp [exOne, exDataSet, exPubs]

theorem firstRound_ne (seed : Int) : factorialTrials (DS := Nat) m3TrialLevels seed ≠ [] := by
  intro h
  have := firstRound_length seed
  rw [h] at this
  cases this

/-- The first round on two data sets and one core. -/
example (ts : List (TrialTemplate Nat)) (hts : ts = factorialTrials m3TrialLevels 1) (g : Nat → Nat) :
    ∃ fs', driverExecute exRowWorld exRowsCsv exEnv (fun _ => exEnv.points) exRunDesign ts
      "d/e" "" 1 "out.csv" (fun _ => none) g .oneCore =
      some (allRows (continuingRows { exEnv with points := exEnv.points } "" exRunDesign
        (withGenerators ts g)), fs') := by
  obtain ⟨fs', h, -⟩ := C83_one_core exRowWorld exRowWorld_hex exRowsCsv exEnv (fun _ => exEnv.points)
    exRunDesign (by decide) (by simp [exRunDesign]) exRunDesign_names ts (hts ▸ firstRound_ne 1)
    (fun nd hnd => hts ▸ firstRound_texts exEnv.text fracText_good 1 nd.2 (exRunDesign_publishers nd hnd))
    "d/e" "" 1 "out.csv" g
  exact ⟨fs', h⟩

/-- The same with workers. -/
example (ts : List (TrialTemplate Nat)) (hts : ts = factorialTrials m3TrialLevels 1) (g : Nat → Nat) :
    ∃ schedule fs', driverExecute exRowWorld exRowsCsv exEnv (fun _ => exEnv.points) exRunDesign ts
      "d/e" "" 1 "out.csv" (fun _ => none) g (.cores schedule) =
      some (allRows ((freshRows { exEnv with points := exEnv.points } "" exRunDesign
        (withGenerators ts g)).map (fun r => r.map id)), fs') := by
  obtain ⟨schedule, hdone⟩ := workers_can_finish
    (driverWorld exRowWorld exEnv (fun _ => exEnv.points) exRunDesign ts)
    (designTrials "d/e" "" (driverDescriptors exEnv.text exRunDesign ts) (exRunDesign.map (·.1))) 1
    (fun _ => none) g
  obtain ⟨fs', h, -⟩ := C83_many_cores exRowWorld exRowWorld_hex exRowsCsv exEnv
    (fun _ => exEnv.points)
    exRunDesign (by decide) (by simp [exRunDesign]) exRunDesign_names ts (hts ▸ firstRound_ne 1)
    (fun nd hnd => hts ▸ firstRound_texts exEnv.text fracText_good 1 nd.2 (exRunDesign_publishers nd hnd))
    "d/e" "" 1 id (fun row _ => ⟨exReadCode_exWriteCode row, exRowWorld_torn row⟩) "out.csv" g schedule
    hdone
  exact ⟨schedule, fs', h⟩

/-- On the first of the data sets alone, the number of cores makes no difference. -/
example (ts : List (TrialTemplate Nat)) (hts : ts = factorialTrials m3TrialLevels 1) (g : Nat → Nat) :
    ∃ schedule res fs1 fs2, driverExecute exRowWorld exRowsCsv exEnv (fun _ => exEnv.points)
        [("one", exOne)] ts "d/e" "" 1 "out.csv" (fun _ => none) g .oneCore = some (res, fs1) ∧
      driverExecute exRowWorld exRowsCsv exEnv (fun _ => exEnv.points)
        [("one", exOne)] ts "d/e" "" 1 "out.csv" (fun _ => none) g (.cores schedule) =
          some (res, fs2) := by
  obtain ⟨schedule, hdone⟩ := workers_can_finish
    (driverWorld exRowWorld exEnv (fun _ => exEnv.points) [("one", exOne)] ts)
    (designTrials "d/e" "" (driverDescriptors exEnv.text [("one", exOne)] ts) ["one"]) 1
    (fun _ => none) g
  obtain ⟨res, fs1, fs2, h1, h2, -⟩ := C83_cores_agree exRowWorld exRowWorld_hex exRowsCsv exEnv
    (fun _ => exEnv.points) ("one", exOne) (by decide +kernel) ts (hts ▸ firstRound_ne 1)
    (hts ▸ firstRound_texts exEnv.text fracText_good 1 exOne
      (exRunDesign_publishers ("one", exOne) (by simp [exRunDesign])))
    "d/e" "" 1 (fun row _ => ⟨exReadCode_exWriteCode row, exRowWorld_torn row⟩) "out.csv" g schedule
    hdone
  exact ⟨schedule, res, fs1, fs2, h1, h2⟩

/-- On Beam, every trial evaluated in one accumulator. -/
example (ts : List (TrialTemplate Nat)) (hts : ts = factorialTrials m3TrialLevels 1) (g : Nat → Nat)
    (trials : List TrialConfig) (htrials : trials =
      designTrials "d/e" "" (driverDescriptors exEnv.text exRunDesign ts) (exRunDesign.map (·.1)))
    (tree : CombineTree (Fin trials.length)) (htree : FedOnce tree) :
    ∃ (evs : List (Event (Nat → Nat) (Fin trials.length))) (results rows : List Row) (fs' : Files),
      driverExecute exRowWorld exRowsCsv exEnv (fun _ => exEnv.points)
        exRunDesign ts "d/e" "" 1 "out.csv" (fun _ => none) g
        (.beam (htrials ▸ evs) (htrials ▸ tree) "t") = some (.ok rows, fs') ∧
      freshRows { exEnv with points := exEnv.points } "" exRunDesign (withGenerators ts g) =
        results.map .ok ∧ rows.Perm (results.map id) := by
  obtain ⟨schedule, hdone⟩ := workers_can_finish
    (driverWorld exRowWorld exEnv (fun _ => exEnv.points) exRunDesign ts) trials 1 (fun _ => none) g
  have hres : ∃ results : List Row, freshRows { exEnv with points := exEnv.points } "" exRunDesign
      (withGenerators ts g) = results.map .ok := by
    have h : ∀ x ∈ freshRows { exEnv with points := exEnv.points } "" exRunDesign
        (withGenerators ts g), ∃ r, x = .ok r := by
      intro x hx
      obtain ⟨nd, hnd, hx⟩ := List.mem_flatMap.1 hx
      obtain ⟨tg, htg, rfl⟩ := List.mem_map.1 hx
      obtain ⟨ti, hti, rfl⟩ := List.mem_map.1 htg
      have ht : ti.1 ∈ ts := (List.mem_zipIdx' hti).2 ▸ List.getElem_mem _
      obtain ⟨r1, r2, r3, r4⟩ := firstRound_runnable exEnv 1 exRunDesign exRunDesign_publishers ti.1
        (hts ▸ ht) nd hnd
      exact (C97_returns_row { exEnv with points := exEnv.points } nd.1 nd.2
        (ti.1.update id nd.2.publisherCount).desc "" (g ti.2)).2 ⟨r1, r2, r3, r4⟩
    generalize freshRows { exEnv with points := exEnv.points } "" exRunDesign
      (withGenerators ts g) = l at h ⊢
    induction l with
    | nil => exact ⟨[], rfl⟩
    | cons x l ih =>
      obtain ⟨r, hr⟩ := h x (by simp)
      obtain ⟨rs, hrs⟩ := ih (fun y hy => h y (by simp [hy]))
      exact ⟨r :: rs, by rw [hr, hrs]; rfl⟩
  obtain ⟨results, hres⟩ := hres
  obtain ⟨rows, fs', h1, h2, -⟩ := C83_beam_rows exRowWorld exRowWorld_hex exRowsCsv exEnv
    (fun _ => exEnv.points)
    exRunDesign (by decide) (by simp [exRunDesign]) exRunDesign_names ts (hts ▸ firstRound_ne 1)
    (fun nd hnd => hts ▸ firstRound_texts exEnv.text fracText_good 1 nd.2 (exRunDesign_publishers nd hnd))
    "d/e" "" 1 id (fun row _ => ⟨exReadCode_exWriteCode row, rfl, exRowWorld_torn row⟩)
    (fun rows _ => by rw [List.map_id]; exact exReadCode_exWriteCode rows) "out.csv" g trials htrials
    (schedule.map .step) (by
      intro i g' h
      obtain ⟨j, -, hj⟩ := List.mem_map.1 h
      cases hj) hdone tree htree "t" results hres
  exact ⟨_, results, rows, fs', h1, hres, h2⟩

end Verif
