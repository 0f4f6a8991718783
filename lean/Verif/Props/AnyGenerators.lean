import Verif.Lemmas.TrialAny
import Verif.Props.Beam

/-!
# Trials whose results depend on shared generators (C48, C50, C82, C83)

The theorems of `Props/Trial`, `Props/Design` and `Props/Beam` compare rows with those of an undisturbed
run, which is possible only if the result of a trial does not depend on the state of the generators
shared by the trials.  Here it may.  Also, the text of a row need not be read back as the same row:
`norm r` is what reading the text of `r` gives (pandas reads an empty text as NaN, for example).
-/

namespace Verif

variable {ρ γ : Type}

/-- `r` is the result of the trial for some state of the shared generators. -/
def ResultOf (w : World ρ γ) (seed : Int) (t : TrialConfig) (r : ρ) : Prop :=
  ∃ g, (w.outcome t seed g).1 = .ok r

/-- `r'` is the row `r`, as computed or as read back. -/
def SameRow (norm : ρ → ρ) (r r' : ρ) : Prop := r' = r ∨ r' = norm r

/-! ## C48 -/

/-- **C48 (results depending on shared generators).** Any number of trials with different result files
are evaluated at the same time, with any interleaving, crashes and restarts with any state of the
generators.  If no partly written result can be read as a table, every evaluation that ended gave the
outcome of its trial for some state of the generators, and so does an evaluation afterwards.  As soon
as one evaluation of a trial has returned a row, the row is settled: evaluating the trial again, with
any seed, returns it and changes no file, and so do all evaluations that end later, whatever happens in
between. -/
theorem C48_any_generators {ι : Type} [DecidableEq ι] (w : World ρ γ) (hw : HexDigest w)
    (cfg : ι → TrialConfig) (seed : Int)
    (hinj : ∀ i j, resultsPath (cfg i) = resultsPath (cfg j) → i = j) (norm : ρ → ρ)
    (hread : ∀ i r, ResultOf w seed (cfg i) r → w.readCsv (w.toCsv r) = .ok (norm r))
    (htorn : ∀ i r, ResultOf w seed (cfg i) r → TornUnreadable w (w.toCsv r))
    (fs : Files) (hfs : ∀ i, fs (resultsPath (cfg i)) = none) (g0 : ι → γ)
    (evs : List (Event γ ι)) (i : ι) :
    let s := sysRun w cfg seed ⟨fs, fun _ => .start, g0⟩ evs
    (∀ e, s.pc i = .done (.error e) → ∃ g, (w.outcome (cfg i) seed g).1 = .error e) ∧
    (∀ r', s.pc i = .done (.ok r') → ∃ r, ResultOf w seed (cfg i) r ∧ SameRow norm r r' ∧
      (∀ seed' g, evaluate w (cfg i) seed' s.fs g = (.ok (norm r), s.fs, g)) ∧
      ∀ evs' res, (sysRun w cfg seed s evs').pc i = .done res →
        res = .ok r ∨ res = .ok (norm r)) ∧
    (∀ g, match (evaluate w (cfg i) seed s.fs g).1 with
      | .error e => ∃ g', (w.outcome (cfg i) seed g').1 = .error e
      | .ok r' => ∃ r, ResultOf w seed (cfg i) r ∧ SameRow norm r r') := by
  intro s
  have hinv : SysInvP w norm cfg (fun i res => ∃ g, (w.outcome (cfg i) seed g).1 = res) s := by
    refine sysRun_invP w hw cfg seed hinj _ (fun i g => ⟨g, rfl⟩) norm hread htorn evs _ ?_
    intro i
    have h0 : RecoverableP w (fun res => ∃ g, (w.outcome (cfg i) seed g).1 = res)
        (fs (resultsPath (cfg i))) := by
      rw [hfs]
      trivial
    exact h0
  have hi := hinv i
  refine ⟨?_, ?_, ?_⟩
  · intro e he
    rw [he] at hi
    exact hi.2
  · intro r' hr'
    rw [hr'] at hi
    obtain ⟨-, r, h1, h2, h3⟩ := hi
    refine ⟨r, h1, h3, ?_, ?_⟩
    · intro seed' g
      simp only [evaluate, h2, hread i r h1]
    · intro evs' res hres
      have hset := sysRun_settled w hw cfg seed hinj i r norm (hread i r h1) evs' s (by
        rw [hr']
        refine ⟨?_, h2⟩
        rcases h3 with h | h
        · exact Or.inl (by rw [h])
        · exact Or.inr (by rw [h]))
      rw [hres] at hset
      exact hset.1
  · intro g
    have h := (evaluate_recoverableP w hw (cfg i) seed _ s.fs g ⟨g, rfl⟩ norm (hread i)
      hi.recoverable).1
    split
    · rename_i e he
      rw [he] at h
      exact h
    · rename_i r' hr'
      rw [hr'] at h
      obtain ⟨r, h1, _, h3, _⟩ := h
      exact ⟨r, h1, h3⟩

/-- Results that are the state of the generator: the first of two evaluations dies while writing, the
second starts with another generator and returns 2; its result is kept although the trial is started
once more. -/
example : let w := exGenWorld
    let s := sysRun w (fun _ : Unit => exTrial) 7 ⟨fun _ => none, fun _ => .start, fun _ => 5⟩
      (List.replicate 5 (.step ()) ++ [.restart () 2] ++ List.replicate 12 (.step ()))
    s.pc () = .done (.ok 2) ∧
      (evaluate w exTrial 9 s.fs 30).1 = .ok 2 ∧
      (sysRun w (fun _ : Unit => exTrial) 7 s ([.restart () 30] ++ List.replicate 12 (.step ()))).pc ()
        = .done (.ok 2) := by
  refine ⟨?_, ?_, ?_⟩ <;> with_unfolding_all rfl

example (evs : List (Event Nat Unit)) (r' : Nat)
    (h : (sysRun exGenWorld (fun _ : Unit => exTrial) 7
      ⟨fun _ => none, fun _ => .start, fun _ => 5⟩ evs).pc () = .done (.ok r')) :
    ∃ r, ResultOf exGenWorld 7 exTrial r ∧ SameRow id r r' := by
  obtain ⟨r, h1, h2, -⟩ := (C48_any_generators exGenWorld exGenWorld_hex (fun _ : Unit => exTrial) 7
    (fun _ _ _ => rfl) id (fun _ r _ => exGenWorld_read r) (fun _ r _ => exGenWorld_torn r)
    (fun _ => none) (fun _ => rfl) (fun _ => 5) evs ()).2.1 r' h
  exact ⟨r, h1, h2⟩

/-! ## C50 -/

/-- What a finished design looks like: `out` are rows, files and generators after loading.  There is a
result for every trial, in the order of the trials; the rows are these results; and loading the design
again, with any seed and generators, on one core or with workers, returns the same rows. -/
def LoadedDesign (w : World ρ γ) (norm : ρ → ρ) (trials : List TrialConfig) (seed : Int)
    (results : List ρ) (out : Except PyErr (List ρ) × Files × γ) : Prop :=
  List.Forall₂ (ResultOf w seed) trials results ∧
  (∃ rows, out.1 = .ok rows ∧ List.Forall₂ (SameRow norm) results rows) ∧
  ∀ seed' g, loadSequential w trials seed' out.2.1 g = (.ok (results.map norm), out.2.1, g) ∧
    ∀ schedule, (loadParallel w trials seed' out.2.1 g schedule).1 = .ok (results.map norm)

/-- The file of a trial before a run: missing, unreadable, or the complete result of an earlier run. -/
def Resumable (w : World ρ γ) (P : ρ → Prop) (x : Option Text) : Prop :=
  x = none ∨ (∃ txt e, x = some txt ∧ w.readCsv txt = .error e) ∨ ∃ r, P r ∧ x = some (w.toCsv r)

theorem evaluateAll_any (w : World ρ γ) (hw : HexDigest w) (norm : ρ → ρ)
    (P : TrialConfig → ρ → Prop) (seed : Int) (trials : List TrialConfig) : ∀ (fs : Files) (g : γ),
    (∀ t ∈ trials, ∀ r, P t r → w.readCsv (w.toCsv r) = .ok (norm r)) →
    (trials.map resultsPath).Nodup →
    (∀ t ∈ trials, (∃ r, P t r ∧ fs (resultsPath t) = some (w.toCsv r)) ∨
      ((fs (resultsPath t) = none ∨
          ∃ txt e, fs (resultsPath t) = some txt ∧ w.readCsv txt = .error e) ∧
        ∀ g, ∃ r, (w.outcome t seed g).1 = .ok r ∧ P t r)) →
    ∃ results rows fs' g', evaluateAll w seed trials fs g = (.ok rows, fs', g') ∧
      List.Forall₂ P trials results ∧ List.Forall₂ (SameRow norm) results rows ∧
      List.Forall₂ (fun t r => fs' (resultsPath t) = some (w.toCsv r)) trials results ∧
      ∀ p, (∀ t ∈ trials, p ≠ resultsPath t ∧ p ≠ pendingPath w t) → fs' p = fs p := by
  induction trials with
  | nil =>
    intro fs g _ _ _
    exact ⟨[], [], fs, g, rfl, .nil, .nil, .nil, fun _ _ => rfl⟩
  | cons t rest ih =>
    intro fs g hread hnd hfs
    rw [List.map_cons, List.nodup_cons] at hnd
    have hne := path_ne_pending w hw t t
    have key : ∃ r r' fs1 g1, evaluate w t seed fs g = (.ok r', fs1, g1) ∧ P t r ∧
        SameRow norm r r' ∧ fs1 (resultsPath t) = some (w.toCsv r) ∧
        ∀ p, p ≠ resultsPath t → p ≠ pendingPath w t → fs1 p = fs p := by
      rcases hfs t (by simp) with ⟨r, h1, h2⟩ | ⟨h1, h2⟩
      · refine ⟨r, norm r, fs, g, ?_, h1, Or.inr rfl, h2, fun _ _ _ => rfl⟩
        simp only [evaluate, h2, hread t (by simp) r h1]
      · obtain ⟨r, h3, h4⟩ := h2 g
        rcases ho : w.outcome t seed g with ⟨res, g1⟩
        rw [ho] at h3
        simp only at h3
        subst h3
        rcases h1 with h1 | ⟨txt, e, h1, h5⟩
        · refine ⟨r, r, setFile (setFile (setFile fs (pendingPath w t) (some (w.pendingText t)))
            (resultsPath t) (some (w.toCsv r))) (pendingPath w t) none,
            g1, ?_, h4, Or.inl rfl, ?_, ?_⟩
          · simp only [evaluate, h1, computeTrial, ho]
          · rw [setFile_other _ _ hne, setFile_same]
          · intro p hp1 hp2
            rw [setFile_other _ _ hp2, setFile_other _ _ hp1, setFile_other _ _ hp2]
        · refine ⟨r, r, setFile (setFile (setFile (setFile fs (resultsPath t) none)
            (pendingPath w t) (some (w.pendingText t)))
            (resultsPath t) (some (w.toCsv r))) (pendingPath w t) none,
            g1, ?_, h4, Or.inl rfl, ?_, ?_⟩
          · simp only [evaluate, h1, h5, computeTrial, ho]
          · rw [setFile_other _ _ hne, setFile_same]
          · intro p hp1 hp2
            rw [setFile_other _ _ hp2, setFile_other _ _ hp1, setFile_other _ _ hp2,
              setFile_other _ _ hp1]
    obtain ⟨r, r', fs1, g1, he, h1, h2, h3, h4⟩ := key
    have hother : ∀ u ∈ rest, fs1 (resultsPath u) = fs (resultsPath u) := by
      intro u hu
      refine h4 _ ?_ (path_ne_pending w hw u t)
      intro e
      exact hnd.1 (List.mem_map.2 ⟨u, hu, e⟩)
    obtain ⟨results, rows, fs', g', k1, k2, k3, k4, k5⟩ := ih fs1 g1
      (fun u hu => hread u (by simp [hu])) hnd.2 (by
        intro u hu
        rw [hother u hu]
        exact hfs u (by simp [hu]))
    refine ⟨r :: results, r' :: rows, fs', g', ?_, .cons h1 k2, .cons h2 k3, .cons ?_ k4, ?_⟩
    · simp only [evaluateAll, he, k1]
    · rw [k5 _ (fun u hu => ⟨fun e => hnd.1 (List.mem_map.2 ⟨u, hu, e.symm⟩),
        path_ne_pending w hw t u⟩), h3]
    · intro p hp
      rw [k5 p (fun u hu => hp u (by simp [hu])), h4 p (hp t (by simp)).1 (hp t (by simp)).2]

theorem evaluateAll_complete (w : World ρ γ) (norm : ρ → ρ) (seed : Int) (fs : Files) (g : γ)
    (trials : List TrialConfig) (results : List ρ)
    (h : List.Forall₂ (fun t r => fs (resultsPath t) = some (w.toCsv r) ∧
      w.readCsv (w.toCsv r) = .ok (norm r)) trials results) :
    evaluateAll w seed trials fs g = (.ok (results.map norm), fs, g) := by
  induction h with
  | nil => rfl
  | cons h _ ih => simp only [evaluateAll, evaluate, h.1, h.2, ih, List.map_cons]

theorem loadSequential_complete (w : World ρ γ) (norm : ρ → ρ) (seed : Int) (fs : Files) (g : γ)
    (trials : List TrialConfig) (hne : trials ≠ []) (results : List ρ)
    (h : List.Forall₂ (fun t r => fs (resultsPath t) = some (w.toCsv r) ∧
      w.readCsv (w.toCsv r) = .ok (norm r)) trials results) :
    loadSequential w trials seed fs g = (.ok (results.map norm), fs, g) := by
  unfold loadSequential
  rw [evaluateAll_complete w norm seed fs g trials results h]
  cases h with
  | nil => exact absurd rfl hne
  | cons _ _ => rfl

theorem paths_inj {trials : List TrialConfig} (hnd : (trials.map resultsPath).Nodup)
    (i j : Fin trials.length) (h : resultsPath trials[i] = resultsPath trials[j]) : i = j := by
  have h2 : (trials.map resultsPath)[(i : Nat)]'(by simp) =
      (trials.map resultsPath)[(j : Nat)]'(by simp) := by simpa using h
  exact Fin.ext ((List.Nodup.getElem_inj_iff hnd).1 h2)

theorem forall₂_get {α β : Type} {R : α → β → Prop} {l : List α} {m : List β}
    (h : List.Forall₂ R l m) (i : Fin l.length) : ∃ hi : i.1 < m.length, R l[i] m[i.1] := by
  have hl := h.length_eq
  have hi : i.1 < m.length := by rw [← hl]; exact i.2
  exact ⟨hi, (List.forall₂_iff_get.1 h).2 i.1 i.2 hi⟩

theorem loadParallel_complete (w : World ρ γ) (hw : HexDigest w) (norm : ρ → ρ) (seed : Int)
    (fs : Files) (g : γ) (trials : List TrialConfig) (hne : trials ≠ []) (results : List ρ)
    (hnd : (trials.map resultsPath).Nodup)
    (h : List.Forall₂ (fun t r => fs (resultsPath t) = some (w.toCsv r) ∧
      w.readCsv (w.toCsv r) = .ok (norm r)) trials results) (schedule : List (Fin trials.length)) :
    (loadParallel w trials seed fs g schedule).1 = .ok (results.map norm) := by
  have hset : ∀ i : Fin trials.length, ∃ r, results[i.1]? = some r ∧
      w.readCsv (w.toCsv r) = .ok (norm r) ∧
      Settled w norm r ((runWorkers w trials seed fs g schedule).fs (resultsPath trials[i]))
        ((runWorkers w trials seed fs g schedule).pc i) := by
    intro i
    obtain ⟨hi, h1, h2⟩ := forall₂_get h i
    exact ⟨results[i.1], List.getElem?_eq_getElem hi, h2,
      sysRun_settled w hw (fun i : Fin trials.length => trials[i]) seed (paths_inj hnd) i _ norm h2
        (schedule.map .step) ⟨fs, fun _ => .start, fun _ => g⟩ h1⟩
  have hraise : (List.finRange trials.length).findSome?
      (fun i => ((runWorkers w trials seed fs g schedule).pc i).raised) = none := by
    rw [List.findSome?_eq_none_iff]
    intro i _
    obtain ⟨r, -, -, h3⟩ := hset i
    rcases hp : (runWorkers w trials seed fs g schedule).pc i with _ | _ | _ | _ | _ | _ | _ | res
    <;> try rfl
    rw [hp] at h3
    rcases h3.1 with h4 | h4 <;> rw [h4] <;> rfl
  unfold loadParallel
  simp only [hraise]
  rw [loadSequential_complete w norm seed _ g trials hne results]
  rw [List.forall₂_iff_get]
  refine ⟨h.length_eq, ?_⟩
  intro i h1 h2
  obtain ⟨r, h3, h4, h5⟩ := hset ⟨i, h1⟩
  rw [List.getElem?_eq_getElem h2] at h3
  have h6 := Option.some.inj h3
  rw [← h6] at h4 h5
  exact ⟨h5.file, h4⟩

/-- **C50 (results depending on shared generators).** If every trial gives a row whatever the state of
the generators, and no partly written result can be read, then loading a design gives exactly one row
per trial, in order, each of them a result of its trial; on one core and with any interleaving of any
number of workers, also if earlier runs were interrupted.  A row that a worker has returned is the row
that is loaded, and every later load gives the same rows. -/
theorem C50_any_generators (w : World ρ γ) (hw : HexDigest w) (trials : List TrialConfig)
    (hne : trials ≠ []) (seed : Int) (norm : ρ → ρ)
    (hrow : ∀ t ∈ trials, ∀ g, ∃ r, (w.outcome t seed g).1 = .ok r)
    (hread : ∀ t ∈ trials, ∀ r, ResultOf w seed t r → w.readCsv (w.toCsv r) = .ok (norm r))
    (htorn : ∀ t ∈ trials, ∀ r, ResultOf w seed t r → TornUnreadable w (w.toCsv r))
    (hnd : (trials.map resultsPath).Nodup) (fs : Files)
    (hfs : ∀ t ∈ trials, Resumable w (ResultOf w seed t) (fs (resultsPath t))) (g : γ) :
    (∃ results, LoadedDesign w norm trials seed results (loadSequential w trials seed fs g)) ∧
    ∀ schedule, ∃ results,
      LoadedDesign w norm trials seed results (loadParallel w trials seed fs g schedule) ∧
      ∀ (i : Fin trials.length) res, (runWorkers w trials seed fs g schedule).pc i = .done res →
        ∃ r r', results[i.1]? = some r ∧ res = .ok r' ∧ SameRow norm r r' := by
  have main : ∀ (Q : TrialConfig → ρ → Prop) (fs : Files),
      (∀ t ∈ trials, ∀ r, Q t r → ResultOf w seed t r) →
      (∀ t ∈ trials, (∃ r, Q t r ∧ fs (resultsPath t) = some (w.toCsv r)) ∨
        ((fs (resultsPath t) = none ∨
          ∃ txt e, fs (resultsPath t) = some txt ∧ w.readCsv txt = .error e) ∧
        ∀ g, ∃ r, (w.outcome t seed g).1 = .ok r ∧ Q t r)) →
      ∃ results, List.Forall₂ Q trials results ∧
        LoadedDesign w norm trials seed results (loadSequential w trials seed fs g) := by
    intro Q fs hQ hfiles
    obtain ⟨results, rows, fs', g', k1, k2, k3, k4, -⟩ := evaluateAll_any w hw norm Q seed trials fs g
      (fun t ht r hr => hread t ht r (hQ t ht r hr)) hnd hfiles
    refine ⟨results, k2, ?_⟩
    have hload : loadSequential w trials seed fs g = (.ok rows, fs', g') := by
      unfold loadSequential
      rw [k1]
      cases k3 with
      | nil =>
        cases k2 with
        | nil => exact absurd rfl hne
      | cons _ _ => rfl
    have hcomp : List.Forall₂ (fun t r => fs' (resultsPath t) = some (w.toCsv r) ∧
        w.readCsv (w.toCsv r) = .ok (norm r)) trials results := by
      rw [List.forall₂_iff_get] at k2 k4 ⊢
      refine ⟨k2.1, fun i h1 h2 => ⟨k4.2 i h1 h2, ?_⟩⟩
      exact hread _ (List.getElem_mem _) _ (hQ _ (List.getElem_mem _) _ (k2.2 i h1 h2))
    rw [hload]
    refine ⟨?_, ⟨rows, rfl, k3⟩, ?_⟩
    · rw [List.forall₂_iff_get] at k2 ⊢
      exact ⟨k2.1, fun i h1 h2 => hQ _ (List.getElem_mem _) _ (k2.2 i h1 h2)⟩
    · intro seed' g2
      exact ⟨loadSequential_complete w norm seed' fs' g2 trials hne results hcomp,
        fun schedule => loadParallel_complete w hw norm seed' fs' g2 trials hne results hnd hcomp
          schedule⟩
  constructor
  · obtain ⟨results, -, h⟩ := main (ResultOf w seed) fs (fun _ _ _ h => h) (by
      intro t ht
      rcases hfs t ht with h | h | ⟨r, h1, h2⟩
      · exact Or.inr ⟨Or.inl h, fun g => (hrow t ht g).imp (fun r hr => ⟨hr, g, hr⟩)⟩
      · exact Or.inr ⟨Or.inr h, fun g => (hrow t ht g).imp (fun r hr => ⟨hr, g, hr⟩)⟩
      · exact Or.inl ⟨r, h1, h2⟩)
    exact ⟨results, h⟩
  · intro schedule
    have hmem : ∀ i : Fin trials.length, trials[i] ∈ trials := fun i => List.getElem_mem _
    have hinv : SysInvP w norm (fun i : Fin trials.length => trials[i])
        (fun i res => ∃ r, res = .ok r ∧ ResultOf w seed trials[i] r)
        (runWorkers w trials seed fs g schedule) := by
      refine sysRun_invP w hw _ seed (paths_inj hnd) _ ?_ norm ?_ ?_ _ _ ?_
      · intro i g
        obtain ⟨r, hr⟩ := hrow _ (hmem i) g
        exact ⟨r, hr, g, hr⟩
      · rintro i r ⟨r', h1, h2⟩
        cases h1
        exact hread _ (hmem i) r h2
      · rintro i r ⟨r', h1, h2⟩
        cases h1
        exact htorn _ (hmem i) r h2
      · intro i
        suffices h0 : RecoverableP w (fun res => ∃ r, res = .ok r ∧ ResultOf w seed trials[i] r)
            (fs (resultsPath trials[i])) from h0
        rcases hfs _ (hmem i) with h | ⟨txt, e, h, h'⟩ | ⟨r, h1, h2⟩
        · rw [h]; trivial
        · rw [h]; exact Or.inl ⟨e, h'⟩
        · rw [h2]; exact Or.inr ⟨r, ⟨r, rfl, h1⟩, rfl⟩
    have hraise : (List.finRange trials.length).findSome?
        (fun i => ((runWorkers w trials seed fs g schedule).pc i).raised) = none := by
      rw [List.findSome?_eq_none_iff]
      intro i _
      have hi := hinv i
      rcases hp : (runWorkers w trials seed fs g schedule).pc i with _ | _ | _ | _ | _ | _ | _ | res
      <;> try rfl
      rw [hp] at hi
      rcases res with e | r
      · obtain ⟨r, hr, -⟩ := hi.2
        cases hr
      · rfl
    have hload : loadParallel w trials seed fs g schedule =
        loadSequential w trials seed (runWorkers w trials seed fs g schedule).fs g := by
      unfold loadParallel
      simp only [hraise]
    rw [hload]
    obtain ⟨results, k1, k2⟩ := main (fun t r => ResultOf w seed t r ∧
        ∀ i : Fin trials.length, trials[i] = t → ∀ res,
          (runWorkers w trials seed fs g schedule).pc i = .done res →
            ∃ r', res = .ok r' ∧ SameRow norm r r')
      (runWorkers w trials seed fs g schedule).fs (fun _ _ _ h => h.1) (by
        intro t ht
        obtain ⟨n, hn, rfl⟩ := List.mem_iff_getElem.1 ht
        have hi := hinv ⟨n, hn⟩
        have huniq : ∀ j : Fin trials.length, trials[j] = trials[n] → j = ⟨n, hn⟩ := by
          intro j hj
          exact paths_inj hnd j ⟨n, hn⟩ (congrArg resultsPath hj)
        by_cases hd : ∃ res, (runWorkers w trials seed fs g schedule).pc ⟨n, hn⟩ = .done res
        · obtain ⟨res, hres⟩ := hd
          rw [hres] at hi
          rcases res with e | r'
          · obtain ⟨r, hr, -⟩ := hi.2
            cases hr
          · obtain ⟨-, r, ⟨r2, hr2, h1⟩, h2, h3⟩ := hi
            cases hr2
            refine Or.inl ⟨r, ⟨h1, ?_⟩, h2⟩
            intro j hj res hres2
            rw [huniq j hj, hres] at hres2
            cases hres2
            exact ⟨r', rfl, h3⟩
        · have hno : ∀ (r : ρ) (j : Fin trials.length), trials[j] = trials[n] → ∀ res,
              (runWorkers w trials seed fs g schedule).pc j = .done res →
              ∃ r', res = .ok r' ∧ SameRow norm r r' := by
            intro r j hj res hres
            rw [huniq j hj] at hres
            exact absurd ⟨res, hres⟩ hd
          have hrec : RecoverableP w (fun res => ∃ r, res = .ok r ∧ ResultOf w seed trials[n] r)
              ((runWorkers w trials seed fs g schedule).fs (resultsPath trials[n])) := hi.recoverable
          have hc : ∀ g, ∃ r, (w.outcome trials[n] seed g).1 = .ok r ∧
              (ResultOf w seed trials[n] r ∧ _) := fun g =>
            (hrow _ ht g).imp (fun r hr => ⟨hr, ⟨g, hr⟩, hno r⟩)
          rcases hx : (runWorkers w trials seed fs g schedule).fs (resultsPath trials[n])
            with _ | txt
          · exact Or.inr ⟨Or.inl rfl, hc⟩
          · rw [hx] at hrec
            rcases hrec with ⟨e, he⟩ | ⟨r, ⟨r2, hr2, h1⟩, h2⟩
            · exact Or.inr ⟨Or.inr ⟨txt, e, rfl, he⟩, hc⟩
            · cases hr2
              exact Or.inl ⟨r, ⟨h1, hno r⟩, by rw [h2]⟩)
    refine ⟨results, k2, ?_⟩
    intro i res hres
    obtain ⟨hi, -, h2⟩ := forall₂_get k1 i
    obtain ⟨r', h3, h4⟩ := h2 i rfl res hres
    exact ⟨results[i.1], r', List.getElem?_eq_getElem hi, h3, h4⟩

/-- Two trials whose results are the states of the generator: on one core 0 and 1; with workers both
start from a copy. -/
example : (loadSequential exGenWorld [exTrial, exTrial2] 1 (fun _ => none) 0).1 = .ok [0, 1] ∧
    (loadParallel exGenWorld [exTrial, exTrial2] 1 (fun _ => none) 0
      [0, 0, 0, 0, 0, 0, 0, 1, 1, 1, 1, 1, 1, 1]).1 = .ok [0, 0] := by
  constructor <;> with_unfolding_all rfl

example (schedule : List (Fin 2)) : ∃ results, LoadedDesign exGenWorld id [exTrial, exTrial2] 1
    results (loadParallel exGenWorld [exTrial, exTrial2] 1 (fun _ => none) 0 schedule) := by
  obtain ⟨results, h, -⟩ := (C50_any_generators exGenWorld exGenWorld_hex [exTrial, exTrial2]
    (by decide) 1 id (fun _ _ g => ⟨g, rfl⟩) (fun _ _ r _ => exGenWorld_read r)
    (fun _ _ r _ => exGenWorld_torn r) (by decide +kernel) (fun _ => none)
    (fun _ _ => Or.inl rfl) 0).2 schedule
  exact ⟨results, h⟩

/-! ## C82 -/

/-- All rows are results of the trials, as computed or as read back. -/
def RowsOf (w : World ρ γ) (seed : Int) (norm : ρ → ρ) (trials : List TrialConfig) (rows : List ρ) :
    Prop :=
  ∀ r' ∈ rows, ∃ t ∈ trials, ∃ r, ResultOf w seed t r ∧ SameRow norm r r'

theorem rowsOf_of_forall₂ {w : World ρ γ} {seed : Int} {norm : ρ → ρ} {trials : List TrialConfig}
    {results rows : List ρ} (h1 : List.Forall₂ (ResultOf w seed) trials results)
    (h2 : List.Forall₂ (SameRow norm) results rows) : RowsOf w seed norm trials rows := by
  intro r' hr'
  obtain ⟨n, hn, rfl⟩ := List.mem_iff_getElem.1 hr'
  rw [List.forall₂_iff_get] at h1 h2
  have hn2 : n < results.length := by rw [h2.1]; exact hn
  have hn1 : n < trials.length := by rw [h1.1]; exact hn2
  exact ⟨trials[n], List.getElem_mem _, results[n], h1.2 n hn1 hn2, h2.2 n hn2 hn⟩

theorem map_norm_of_sameRow {norm : ρ → ρ} {results rows : List ρ}
    (hidem : ∀ r ∈ results, norm (norm r) = norm r)
    (h : List.Forall₂ (SameRow norm) results rows) : rows.map norm = results.map norm := by
  induction h with
  | nil => rfl
  | cons h _ ih =>
    rw [List.map_cons, List.map_cons, ih (fun r hr => hidem r (by simp [hr]))]
    congr 1
    rcases h with h | h
    · rw [h]
    · rw [h]; exact hidem _ (by simp)

/-- **C82 (results depending on shared generators).** A finished Beam run returns exactly one row per
trial, each of them a result of its trial as it is read back, in some order: for every interleaving of
the evaluations, every number of restarts and every way of splitting and merging accumulators, also if
earlier runs were interrupted.  Loading the design afterwards on one core gives the same rows in the
order of the trials. -/
theorem C82_any_generators (w : World ρ γ) (hw : HexDigest w) (csv : FrameCsv ρ)
    (trials : List TrialConfig) (hne : trials ≠ []) (seed : Int) (norm : ρ → ρ)
    (hrow : ∀ t ∈ trials, ∀ g, ∃ r, (w.outcome t seed g).1 = .ok r)
    (hread : ∀ t ∈ trials, ∀ r, ResultOf w seed t r → w.readCsv (w.toCsv r) = .ok (norm r))
    (hidem : ∀ t ∈ trials, ∀ r, ResultOf w seed t r → norm (norm r) = norm r)
    (htorn : ∀ t ∈ trials, ∀ r, ResultOf w seed t r → TornUnreadable w (w.toCsv r))
    (hcsv : ∀ rows, RowsOf w seed norm trials rows →
      csv.readCsv (csv.toCsv rows) = .ok (rows.map norm))
    (hnd : (trials.map resultsPath).Nodup) (fs : Files)
    (hfs : ∀ t ∈ trials, Resumable w (ResultOf w seed t) (fs (resultsPath t))) (g : γ)
    (evs : List (Event γ (Fin trials.length))) (hdone : BeamFinished w trials seed fs g evs)
    (tree : CombineTree (Fin trials.length)) (htree : FedOnce tree) (temp : String) :
    ∃ results rows fs', List.Forall₂ (ResultOf w seed) trials results ∧
      loadBeam w csv trials seed fs g evs tree temp = some (.ok rows, fs') ∧
      rows.Perm (results.map norm) ∧
      ((∀ t ∈ trials, resultsPath t ≠ tempResultPath temp) → ∀ seed' g',
        loadSequential w trials seed' fs' g' = (.ok (results.map norm), fs', g')) := by
  have hmem : ∀ i : Fin trials.length, trials[i] ∈ trials := fun i => List.getElem_mem _
  have hinv : SysInvP w norm (fun i : Fin trials.length => trials[i])
      (fun i res => ∃ r, res = .ok r ∧ ResultOf w seed trials[i] r)
      (runBeam w trials seed fs g evs) := by
    refine sysRun_invP w hw _ seed (paths_inj hnd) _ ?_ norm ?_ ?_ _ _ ?_
    · intro i g
      obtain ⟨r, hr⟩ := hrow _ (hmem i) g
      exact ⟨r, hr, g, hr⟩
    · rintro i r ⟨r', h1, h2⟩
      cases h1
      exact hread _ (hmem i) r h2
    · rintro i r ⟨r', h1, h2⟩
      cases h1
      exact htorn _ (hmem i) r h2
    · intro i
      suffices h0 : RecoverableP w (fun res => ∃ r, res = .ok r ∧ ResultOf w seed trials[i] r)
          (fs (resultsPath trials[i])) from h0
      rcases hfs _ (hmem i) with h | ⟨txt, e, h, h'⟩ | ⟨r, h1, h2⟩
      · rw [h]; trivial
      · rw [h]; exact Or.inl ⟨e, h'⟩
      · rw [h2]; exact Or.inr ⟨r, ⟨r, rfl, h1⟩, rfl⟩
  have hend : ∀ i : Fin trials.length, ∃ r r', ResultOf w seed trials[i] r ∧ SameRow norm r r' ∧
      (runBeam w trials seed fs g evs).pc i = .done (.ok r') ∧
      (runBeam w trials seed fs g evs).fs (resultsPath trials[i]) = some (w.toCsv r) := by
    intro i
    obtain ⟨res, hres⟩ := hdone i
    have hi := hinv i
    rw [hres] at hi
    rcases res with e | r'
    · obtain ⟨r, hr, -⟩ := hi.2
      cases hr
    · obtain ⟨-, r, ⟨r2, hr2, h1⟩, h2, h3⟩ := hi
      cases hr2
      exact ⟨r, r', h1, h3, hres, h2⟩
  choose R R' hR1 hR2 hR3 hR4 using hend
  have hmap : (accumulate tree).mapM (fun i => ((runBeam w trials seed fs g evs).pc i).result) =
      some ((accumulate tree).map (fun i => .ok (R' i))) :=
    option_mapM_some _ _ _ (fun i _ => by rw [hR3 i]; rfl)
  have hid : ((accumulate tree).map (fun i => (Except.ok (R' i) : Except PyErr ρ))).mapM id =
      .ok ((accumulate tree).map R') := by
    have := except_mapM_id_ok ((accumulate tree).map R')
    rwa [List.map_map] at this
  have hperm := accumulate_perm htree
  have hnonempty : ((accumulate tree).map R').isEmpty = false := by
    rw [List.isEmpty_eq_false_iff]
    intro h
    have h2 := hperm.length_eq
    rw [List.map_eq_nil_iff.1 h, List.length_finRange] at h2
    exact hne (List.length_eq_zero_iff.1 h2.symm)
  have hrows : RowsOf w seed norm trials ((accumulate tree).map R') := by
    intro r' hr'
    obtain ⟨i, -, rfl⟩ := List.mem_map.1 hr'
    exact ⟨trials[i], hmem i, R i, hR1 i, hR2 i⟩
  have hnorm : ((accumulate tree).map R').map norm = (accumulate tree).map (fun i => norm (R i)) := by
    rw [List.map_map]
    refine List.map_congr_left ?_
    intro i _
    simp only [Function.comp]
    rcases hR2 i with h | h
    · rw [h]
    · rw [h]; exact hidem _ (hmem i) _ (hR1 i)
  refine ⟨(List.finRange trials.length).map R, (accumulate tree).map (fun i => norm (R i)),
    setFile (runBeam w trials seed fs g evs).fs (tempResultPath temp)
      (some (csv.toCsv ((accumulate tree).map R'))), ?_, ?_, ?_, ?_⟩
  · rw [List.forall₂_iff_get]
    refine ⟨by simp, ?_⟩
    intro i h1 h2
    have := hR1 ⟨i, h1⟩
    simpa using this
  · simp only [loadBeam, hmap, Option.map_some, hid, bind, Except.bind, concatFrames, hnonempty,
      Bool.false_eq_true, if_false, setFile_same, hcsv _ hrows, hnorm]
  · rw [List.map_map]
    exact hperm.map _
  · intro htemp seed' g'
    refine loadSequential_complete w norm seed' _ g' trials hne _ ?_
    rw [List.forall₂_iff_get]
    refine ⟨by simp, ?_⟩
    intro i h1 h2
    have h3 := hR4 ⟨i, h1⟩
    have h4 := hread _ (hmem ⟨i, h1⟩) _ (hR1 ⟨i, h1⟩)
    have h5 := htemp _ (hmem ⟨i, h1⟩)
    rw [← setFile_other (runBeam w trials seed fs g evs).fs
      (some (csv.toCsv ((accumulate tree).map R'))) h5] at h3
    refine ⟨?_, ?_⟩
    · simpa using h3
    · simpa using h4

theorem exGenBeam_finished :
    BeamFinished exGenWorld [exTrial, exTrial2] 1 (fun _ => none) 5 exBeamEvents := by
  have h : ∀ i, isDone ((runBeam exGenWorld [exTrial, exTrial2] 1 (fun _ => none) 5
      exBeamEvents).pc i) = true := by decide +kernel
  intro i
  have hi := h i
  rcases hp : (runBeam exGenWorld [exTrial, exTrial2] 1 (fun _ => none) 5 exBeamEvents).pc i
    with _ | _ | _ | _ | _ | _ | _ | res
  case done => exact ⟨res, rfl⟩
  all_goals rw [hp] at hi; cases hi

/-- Two trials on Beam whose results are the states of the generators; the first evaluation dies and is
started again with another generator. -/
example : ∃ results rows fs', List.Forall₂ (ResultOf exGenWorld 1) [exTrial, exTrial2] results ∧
    loadBeam exGenWorld exFrameCsv [exTrial, exTrial2] 1 (fun _ => none) 5 exBeamEvents exBeamTree "d" =
      some (.ok rows, fs') ∧ rows.Perm (results.map id) := by
  obtain ⟨results, rows, fs', h1, h2, h3, -⟩ := C82_any_generators exGenWorld exGenWorld_hex exFrameCsv
    [exTrial, exTrial2] (by decide) 1 id (fun _ _ g => ⟨g, rfl⟩) (fun _ _ r _ => exGenWorld_read r)
    (fun _ _ _ _ => rfl) (fun _ _ r _ => exGenWorld_torn r)
    (fun rows _ => by rw [List.map_id]; exact exFrameCsv_read rows) (by decide +kernel) (fun _ => none)
    (fun _ _ => Or.inl rfl) 5 exBeamEvents exGenBeam_finished exBeamTree exBeamTree_once "d"
  exact ⟨results, rows, fs', h1, h2, h3⟩

/-! ## C83 -/

/-- **C83 (results depending on shared generators).** However the driver is run (one core, several,
Beam), and also if earlier runs were interrupted, there is exactly one row for every distinct pair of
data set and description, a result of that trial.  The returned frame has these rows as computed or as
read back, the output file has them as read back; without Beam both are in the order of generation. -/
theorem C83_any_generators (w : World ρ γ) (hw : HexDigest w) (csv : FrameCsv ρ)
    (dir analysisType : String) (descs : List Descriptor) (names : List String)
    (hnames : ∀ n ∈ names, ':' ∉ n.toList ∧ '/' ∉ n.toList) (hne : names ≠ []) (hd : descs ≠ [])
    (seed : Int) (norm : ρ → ρ) (all : List TrialConfig)
    (hall : all = names.flatMap (experimentTrials dir analysisType descs))
    (hrow : ∀ t ∈ all, ∀ g, ∃ r, (w.outcome t seed g).1 = .ok r)
    (hread : ∀ t ∈ all, ∀ r, ResultOf w seed t r → w.readCsv (w.toCsv r) = .ok (norm r))
    (hidem : ∀ t ∈ all, ∀ r, ResultOf w seed t r → norm (norm r) = norm r)
    (htorn : ∀ t ∈ all, ∀ r, ResultOf w seed t r → TornUnreadable w (w.toCsv r))
    (hcsv : ∀ rows, RowsOf w seed norm all rows →
      csv.readCsv (csv.toCsv rows) = .ok (rows.map norm))
    (outputFile : String) (fs : Files)
    (hfs : ∀ t ∈ all, Resumable w (ResultOf w seed t) (fs (resultsPath t))) (g : γ)
    (runner : Runner γ (designTrials dir analysisType descs names).length)
    (hrun : RunnerFinishes w (designTrials dir analysisType descs names) seed fs g runner) :
    ∃ trials results rows fs', FirstOfEach trialKey all trials ∧
      List.Forall₂ (ResultOf w seed) trials results ∧
      execute w csv dir analysisType descs names seed outputFile fs g runner = some (.ok rows, fs') ∧
      (∃ ordered, List.Forall₂ (SameRow norm) results ordered ∧ rows.Perm ordered ∧
        ((∀ evs tree temp, runner ≠ .beam evs tree temp) → rows = ordered)) ∧
      ∃ txt saved, fs' outputFile = some txt ∧ csv.readCsv txt = .ok saved ∧
        saved.Perm (results.map norm) ∧
        ((∀ evs tree temp, runner ≠ .beam evs tree temp) → saved = results.map norm) := by
  subst hall
  have hF := C50_trials_partial dir analysisType descs names (fun n hn => (hnames n hn).1)
  have hsub := hF.order.subset
  have hnd : ((designTrials dir analysisType descs names).map resultsPath).Nodup := by
    have h2 := hF.once
    rw [List.Nodup, List.pairwise_map] at h2 ⊢
    refine h2.imp_of_mem ?_
    intro a b ha hb hab e
    have ha' := mem_generated (hF.order.subset ha)
    have hb' := mem_generated (hF.order.subset hb)
    exact hab (resultsPath_inj (ha'.2.trans hb'.2.symm) (hnames _ ha'.1).2 (hnames _ hb'.1).2 e)
  have hne' : (designTrials dir analysisType descs names) ≠ [] := by
    intro h0
    obtain ⟨n, hn⟩ := List.exists_mem_of_ne_nil _ hne
    obtain ⟨d, hd⟩ := List.exists_mem_of_ne_nil _ hd
    have h2 := hF.each _ (List.mem_flatMap.2 ⟨n, hn, List.mem_map.2 ⟨d, hd, rfl⟩⟩)
    rw [h0] at h2
    cases h2
  have hrowsub : ∀ rows, RowsOf w seed norm (designTrials dir analysisType descs names) rows → RowsOf w seed norm
      (names.flatMap (experimentTrials dir analysisType descs)) rows := by
    intro rows h r' hr'
    obtain ⟨t, ht, r, h1, h2⟩ := h r' hr'
    exact ⟨t, hsub ht, r, h1, h2⟩
  have hidem2 : ∀ results, List.Forall₂ (ResultOf w seed) (designTrials dir analysisType descs names) results →
      ∀ r ∈ results, norm (norm r) = norm r := by
    intro results h r hr
    obtain ⟨n, hn, rfl⟩ := List.mem_iff_getElem.1 hr
    rw [List.forall₂_iff_get] at h
    have hn1 : n < (designTrials dir analysisType descs names).length := by rw [h.1]; exact hn
    exact hidem _ (hsub (List.getElem_mem hn1)) _ (h.2 n hn1 hn)
  obtain ⟨hseq, hpar⟩ := C50_any_generators w hw _ hne' seed norm
    (fun t ht => hrow t (hsub ht))
    (fun t ht => hread t (hsub ht)) (fun t ht => htorn t (hsub ht)) hnd fs
    (fun t ht => hfs t (hsub ht)) g
  have finish : ∀ (out : Except PyErr (List ρ) × Files × γ) (results : List ρ),
      LoadedDesign w norm (designTrials dir analysisType descs names) seed results out → ∃ rows,
        List.Forall₂ (ResultOf w seed) (designTrials dir analysisType descs names) results ∧ out.1 = .ok rows ∧
        List.Forall₂ (SameRow norm) results rows ∧
        csv.readCsv (csv.toCsv rows) = .ok (results.map norm) := by
    rintro out results ⟨h1, ⟨rows, h2, h3⟩, -⟩
    refine ⟨rows, h1, h2, h3, ?_⟩
    rw [hcsv rows (hrowsub rows (rowsOf_of_forall₂ h1 h3)), map_norm_of_sameRow (hidem2 _ h1) h3]
  cases runner with
  | oneCore =>
    obtain ⟨results, hl⟩ := hseq
    obtain ⟨rows, h1, h2, h3, h4⟩ := finish _ results hl
    refine ⟨_, results, rows, setFile (loadSequential w (designTrials dir analysisType descs names)
      seed fs g).2.1 outputFile
      (some (csv.toCsv rows)), hF, h1, ?_, ⟨rows, h3, .rfl, fun _ => rfl⟩, csv.toCsv rows,
      results.map norm, setFile_same _ _ _, h4, .rfl, fun _ => rfl⟩
    simp only [execute, h2, Option.map_some]
  | cores schedule =>
    obtain ⟨results, hl, -⟩ := hpar schedule
    obtain ⟨rows, h1, h2, h3, h4⟩ := finish _ results hl
    refine ⟨_, results, rows, setFile (loadParallel w (designTrials dir analysisType descs names)
      seed fs g schedule).2.1 outputFile
      (some (csv.toCsv rows)), hF, h1, ?_, ⟨rows, h3, .rfl, fun _ => rfl⟩, csv.toCsv rows,
      results.map norm, setFile_same _ _ _, h4, .rfl, fun _ => rfl⟩
    simp only [execute, h2, Option.map_some]
  | beam evs tree temp =>
    obtain ⟨results, rows, fs', h1, h2, h3, -⟩ := C82_any_generators w hw csv _ hne' seed norm
      (fun t ht => hrow t (hsub ht)) (fun t ht => hread t (hsub ht)) (fun t ht => hidem t (hsub ht))
      (fun t ht => htorn t (hsub ht)) (fun rows h => hcsv rows (hrowsub rows h)) hnd fs
      (fun t ht => hfs t (hsub ht)) g evs hrun.1 tree hrun.2 temp
    have hsame : List.Forall₂ (SameRow norm) results (results.map norm) := by
      rw [List.forall₂_map_right_iff]
      exact List.forall₂_same.2 (fun _ _ => Or.inr rfl)
    have hsaved : rows.map norm = rows := by
      refine (List.map_congr_left ?_).trans (List.map_id rows)
      intro r' hr'
      obtain ⟨r, hr, rfl⟩ := List.mem_map.1 (h3.subset hr')
      exact hidem2 results h1 r hr
    refine ⟨_, results, rows, setFile fs' outputFile (some (csv.toCsv rows)), hF, h1, ?_,
      ⟨results.map norm, hsame, h3, fun h => absurd rfl (h evs tree temp)⟩, csv.toCsv rows, rows,
      setFile_same _ _ _, ?_, h3, fun h => absurd rfl (h evs tree temp)⟩
    · simp only [execute, h2, Option.map_some]
    · rw [hcsv rows (hrowsub rows ?_), hsaved]
      intro r' hr'
      exact rowsOf_of_forall₂ h1 hsame r' (h3.subset hr')

/-- What reading gives: a row 0 is read as 1. -/
def exNorm (n : Nat) : Nat := if n = 0 then 1 else n

/-- Results are states of the generator, and the text of 0 is read as 1. -/
def exNormWorld : World Nat Nat :=
  { exGenWorld with readCsv := fun txt => (exGenWorld.readCsv txt).map exNorm }

/-- Frames are read in the same way. -/
def exNormCsv : FrameCsv Nat :=
  { exFrameCsv with readCsv := fun txt => (exFrameCsv.readCsv txt).map (List.map exNorm) }

/-- Two trials on one core.  The results are 0 and 1; from the output file they are read as 1 and 1. -/
example : (execute exNormWorld exNormCsv "d/e" "" exDescs ["a"] 1 "out.csv" (fun _ => none) 0
      .oneCore).map (·.1) = some (.ok [0, 1]) ∧
    ((execute exNormWorld exNormCsv "d/e" "" exDescs ["a"] 1 "out.csv" (fun _ => none) 0
      .oneCore).bind (fun r => (r.2 "out.csv").map exNormCsv.readCsv)) = some (.ok [1, 1]) := by
  constructor <;> with_unfolding_all rfl

/-- The driver with workers that are interleaved in any way. -/
example (schedule : List (Fin (designTrials "d/e" "" exDescs ["a", "b"]).length)) :
    ∃ trials results rows fs',
      FirstOfEach trialKey (["a", "b"].flatMap (experimentTrials "d/e" "" exDescs)) trials ∧
      List.Forall₂ (ResultOf exNormWorld 1) trials results ∧
      execute exNormWorld exNormCsv "d/e" "" exDescs ["a", "b"] 1 "out.csv" (fun _ => none) 0
        (.cores schedule) = some (.ok rows, fs') := by
  have hidem : ∀ n, exNorm (exNorm n) = exNorm n := by
    intro n
    unfold exNorm
    split <;> simp_all
  obtain ⟨trials, results, rows, fs', h1, h2, h3, -⟩ := C83_any_generators exNormWorld exGenWorld_hex
    exNormCsv "d/e" "" exDescs ["a", "b"] (by decide +kernel) (by decide) (by decide) 1 exNorm _ rfl
    (fun _ _ g => ⟨g, rfl⟩)
    (fun _ _ r _ => by
      change (exGenWorld.readCsv (exGenWorld.toCsv r)).map exNorm = _
      rw [exGenWorld_read]
      rfl)
    (fun _ _ r _ => hidem r)
    (fun _ _ r _ k hk => by
      obtain ⟨e, he⟩ := exGenWorld_torn r k hk
      refine ⟨e, ?_⟩
      change (exGenWorld.readCsv (torn exGenWorld (exGenWorld.toCsv r) k)).map exNorm = _
      rw [he]
      rfl)
    (fun rows _ => by
      change (exFrameCsv.readCsv (exFrameCsv.toCsv rows)).map (List.map exNorm) = _
      rw [exFrameCsv_read]
      rfl)
    "out.csv" (fun _ => none) (fun _ _ => Or.inl rfl) 0 (.cores schedule) trivial
  exact ⟨trials, results, rows, fs', h1, h2, h3⟩

end Verif
