import Verif.Model.Dataflow
import Verif.Props.CloudTrial
import Verif.Props.DriverExact

/-!
# Results about runs on Dataflow (C48, C82, C83)
-/

namespace Verif

open Verif.Spec

variable {ρ γ : Type}

/-! ## Many evaluations on cloud storage -/

/-- Invariant of one evaluation on cloud storage whose outcomes satisfy `P`. -/
def CloudInvP (norm : ρ → ρ) (G : γ → Prop) (P : Except PyErr ρ → Prop) (x : Option Text) (g : γ) :
    Pc ρ → Prop
  | .start => G g
  | .reading => G g ∧ x.isSome
  | .unlinking => False
  | .pending _ => G g
  | .computing => G g
  | .writing r _ => P (.ok r)
  | .cleanup r => P (.ok r) ∧ x.isSome
  | .done (.error e) => P (.error e)
  | .done (.ok r') => (∃ r, P (.ok r) ∧ SameRow norm r r') ∧ x.isSome

theorem CloudInvP.mono {norm : ρ → ρ} {G : γ → Prop} {P : Except PyErr ρ → Prop} {x y : Option Text}
    {g : γ} {pc : Pc ρ} (hy : x = y ∨ y.isSome) (h : CloudInvP norm G P x g pc) :
    CloudInvP norm G P y g pc := by
  rcases hy with rfl | hy
  · exact h
  · cases pc with
    | start => exact h
    | reading => exact ⟨h.1, hy⟩
    | unlinking => exact h
    | pending k => exact h
    | computing => exact h
    | writing r k => exact h
    | cleanup r' => exact ⟨h.1, hy⟩
    | done res =>
      rcases res with e | r
      · exact h
      · exact ⟨h.1, hy⟩

/-- The object of a trial is missing or a complete result. -/
def CompleteP (w : World ρ γ) (P : Except PyErr ρ → Prop) (x : Option Text) : Prop :=
  x = none ∨ ∃ r, P (.ok r) ∧ x = some (w.toCsv r)

theorem cloudTrialStep_invP (w : World ρ γ) (hw : HexDigest w) (c : TrialConfig) (seed : Int)
    (norm : ρ → ρ) (G : γ → Prop) (P : Except PyErr ρ → Prop) (hP : ∀ g, G g → P (w.outcome c seed g).1)
    (hread : ∀ r, P (.ok r) → w.readCsv (w.toCsv r) = .ok (norm r)) (fs : Files) (pc : Pc ρ) (g : γ)
    (hc : CompleteP w P (fs (resultsPath c)))
    (hi : CloudInvP norm G P (fs (resultsPath c)) g pc) :
    let q := cloudTrialStep w c seed (fs, pc, g)
    (∀ p, (∀ d, p ≠ pendingPath w d) → q.1 p = fs p ∨
      (p = resultsPath c ∧ ∃ r, P (.ok r) ∧ q.1 p = some (w.toCsv r))) ∧
    CloudInvP norm G P (q.1 (resultsPath c)) q.2.2 q.2.1 := by
  intro q
  have hne := path_ne_pending w hw c c
  have same : ∀ x, setFile fs (pendingPath w c) x (resultsPath c) = fs (resultsPath c) := by
    intro x
    simp [setFile, hne]
  have pend : ∀ x p, (∀ d, p ≠ pendingPath w d) → setFile fs (pendingPath w c) x p = fs p := by
    intro x p hp
    simp [setFile, hp c]
  cases pc with
  | start =>
    simp only [q, cloudTrialStep]
    split
    · rename_i h
      exact ⟨fun p _ => Or.inl rfl, hi, h⟩
    · exact ⟨fun p _ => Or.inl rfl, hi⟩
  | reading =>
    obtain ⟨hg, hs⟩ := hi
    rcases hc with h0 | ⟨r, hr, h1⟩
    · rw [h0] at hs; cases hs
    · simp only [q, cloudTrialStep, h1, hread r hr]
      exact ⟨fun p _ => Or.inl trivial, ⟨r, hr, Or.inr rfl⟩, rfl⟩
  | unlinking => exact hi.elim
  | pending k =>
    simp only [q, cloudTrialStep]
    exact ⟨fun p hp => Or.inl (pend _ p hp), hi⟩
  | computing =>
    have ho := hP g hi
    rcases hq : w.outcome c seed g with ⟨e | r, g'⟩
    · rw [hq] at ho
      simp only [q, cloudTrialStep, hq]
      exact ⟨fun p _ => Or.inl trivial, ho⟩
    · rw [hq] at ho
      simp only [q, cloudTrialStep, hq]
      exact ⟨fun p _ => Or.inl trivial, ho⟩
  | writing r k =>
    simp only [q, cloudTrialStep]
    refine ⟨?_, hi, by simp [setFile]⟩
    intro p _
    by_cases hp : p = resultsPath c
    · exact Or.inr ⟨hp, r, hi, by simp [setFile, hp]⟩
    · exact Or.inl (by simp [setFile, hp])
  | cleanup r =>
    simp only [q, cloudTrialStep]
    refine ⟨fun p hp => Or.inl (pend _ p hp), ⟨r, hi.1, Or.inl rfl⟩, ?_⟩
    rw [same]
    exact hi.2
  | done res => exact ⟨fun p _ => Or.inl rfl, hi⟩

section
variable {ι : Type} [DecidableEq ι]

/-- Invariant of all evaluations on cloud storage. -/
def CloudSysInvP (w : World ρ γ) (norm : ρ → ρ) (cfg : ι → TrialConfig) (G : ι → γ → Prop)
    (P : ι → Except PyErr ρ → Prop) (s : Sys ρ γ ι) : Prop :=
  ∀ i, CompleteP w (P i) (s.fs (resultsPath (cfg i))) ∧
    CloudInvP norm (G i) (P i) (s.fs (resultsPath (cfg i))) (s.gen i) (s.pc i)

theorem cloudSysStep_invP (w : World ρ γ) (hw : HexDigest w) (norm : ρ → ρ) (cfg : ι → TrialConfig)
    (seed : Int) (G : ι → γ → Prop) (P : ι → Except PyErr ρ → Prop)
    (hsame : ∀ i j, resultsPath (cfg i) = resultsPath (cfg j) → P i = P j)
    (hP : ∀ i g, G i g → P i (w.outcome (cfg i) seed g).1)
    (hread : ∀ i r, P i (.ok r) → w.readCsv (w.toCsv r) = .ok (norm r))
    (s : Sys ρ γ ι) (h : CloudSysInvP w norm cfg G P s) (ev : Event γ ι) (hev : ev.Allowed G) :
    CloudSysInvP w norm cfg G P (cloudSysStep w cfg seed s ev) := by
  cases ev with
  | step i =>
    obtain ⟨h1, h2⟩ := cloudTrialStep_invP w hw (cfg i) seed norm (G i) (P i) (hP i) (hread i) s.fs
      (s.pc i) (s.gen i) (h i).1 (h i).2
    intro j
    have hj := h1 (resultsPath (cfg j)) (fun d => path_ne_pending w hw (cfg j) d)
    have hj' : s.fs (resultsPath (cfg j)) =
          (cloudTrialStep w (cfg i) seed (s.fs, s.pc i, s.gen i)).1 (resultsPath (cfg j)) ∨
        ∃ r, P j (.ok r) ∧ (cloudTrialStep w (cfg i) seed (s.fs, s.pc i, s.gen i)).1
          (resultsPath (cfg j)) = some (w.toCsv r) := by
      rcases hj with hj | ⟨hp, r, hr, hj⟩
      · exact Or.inl hj.symm
      · exact Or.inr ⟨r, by rw [hsame _ _ hp]; exact hr, hj⟩
    refine ⟨?_, ?_⟩
    · simp only [cloudSysStep]
      rcases hj' with e | ⟨r, hr, e⟩
      · rw [← e]; exact (h j).1
      · exact Or.inr ⟨r, hr, e⟩
    · simp only [cloudSysStep]
      by_cases hij : j = i
      · subst hij
        simp only [if_true]
        exact h2
      · simp only [hij, if_false]
        refine (h j).2.mono ?_
        rcases hj' with e | ⟨r, -, e⟩
        · exact Or.inl e
        · exact Or.inr (by rw [e]; rfl)
  | restart i g =>
    intro j
    refine ⟨(h j).1, ?_⟩
    simp only [cloudSysStep]
    by_cases hij : j = i
    · subst hij
      simp only [if_true]
      exact hev
    · simp only [hij, if_false]
      exact (h j).2

theorem cloudSysRun_invP (w : World ρ γ) (hw : HexDigest w) (norm : ρ → ρ) (cfg : ι → TrialConfig)
    (seed : Int) (G : ι → γ → Prop) (P : ι → Except PyErr ρ → Prop)
    (hsame : ∀ i j, resultsPath (cfg i) = resultsPath (cfg j) → P i = P j)
    (hP : ∀ i g, G i g → P i (w.outcome (cfg i) seed g).1)
    (hread : ∀ i r, P i (.ok r) → w.readCsv (w.toCsv r) = .ok (norm r))
    (evs : List (Event γ ι)) : ∀ (s : Sys ρ γ ι), CloudSysInvP w norm cfg G P s →
    (∀ ev ∈ evs, ev.Allowed G) → CloudSysInvP w norm cfg G P (cloudSysRun w cfg seed s evs) := by
  induction evs with
  | nil => intro s h _; exact h
  | cons ev evs ih =>
    intro s h hev
    exact ih _ (cloudSysStep_invP w hw norm cfg seed G P hsame hP hread s h ev (hev ev (by simp)))
      (fun e he => hev e (by simp [he]))

/-- **C48 (cloud storage, where evaluations write).** Whatever happens, evaluations on cloud storage
change no objects but the results and pending files of their trials. -/
theorem C48_cloud_touched (w : World ρ γ) (cfg : ι → TrialConfig) (seed : Int) (evs : List (Event γ ι)) :
    ∀ (s : Sys ρ γ ι) (p : String), (∀ i, p ≠ resultsPath (cfg i) ∧ p ≠ pendingPath w (cfg i)) →
      (cloudSysRun w cfg seed s evs).fs p = s.fs p := by
  have hstep : ∀ (c : TrialConfig) (fs : Files) (pc : Pc ρ) (g : γ) (p : String), p ≠ resultsPath c →
      p ≠ pendingPath w c → (cloudTrialStep w c seed (fs, pc, g)).1 p = fs p := by
    intro c fs pc g p h1 h2
    cases pc with
    | start => simp only [cloudTrialStep]; split <;> rfl
    | reading =>
      simp only [cloudTrialStep]
      rcases fs (resultsPath c) with _ | txt
      · rfl
      · rcases hr : w.readCsv txt with e | t <;> simp only [hr]
    | unlinking =>
      simp only [cloudTrialStep]
      rcases fs (resultsPath c) with _ | txt
      · rfl
      · exact setFile_other _ _ h1
    | pending k => exact setFile_other _ _ h2
    | computing =>
      rcases hq : w.outcome c seed g with ⟨e | r, g'⟩ <;> simp only [cloudTrialStep, hq]
    | writing r k => exact setFile_other _ _ h1
    | cleanup r => exact setFile_other _ _ h2
    | done res => rfl
  induction evs with
  | nil => intro s p _; rfl
  | cons ev evs ih =>
    intro s p hp
    have e1 : cloudSysRun w cfg seed s (ev :: evs) =
      cloudSysRun w cfg seed (cloudSysStep w cfg seed s ev) evs := rfl
    rw [e1, ih _ p hp]
    cases ev with
    | step i => exact hstep (cfg i) s.fs (s.pc i) (s.gen i) p (hp i).1 (hp i).2
    | restart i g => rfl

example (evs : List (Event Nat (Fin 2))) : (cloudSysRun exGenWorld (fun _ : Fin 2 => exTrial) 7
    ⟨fun p => if p = "d/x.csv" then some ['7'] else none, fun _ => .start, ![5, 6]⟩ evs).fs "d/x.csv" =
      some ['7'] := by
  rw [C48_cloud_touched exGenWorld (fun _ : Fin 2 => exTrial) 7 evs _ "d/x.csv" (by decide +kernel)]
  rfl

/-- **C48 (cloud storage, results depending on shared generators).** Trials are evaluated on cloud
storage by any number of processes, also several at a time for the same trial, with any interleaving,
crashes and restarts with any state of the generators, starting with results missing or complete.
Every evaluation that ended gave the outcome of its trial for some state of the generators, no object
ever holds part of a result, the object of a trial that returned a row exists, and so an evaluation
afterwards returns a result of the trial.  Nothing is assumed about partly written results. -/
theorem C48_cloud_any (w : World ρ γ) (hw : HexDigest w) (norm : ρ → ρ) (cfg : ι → TrialConfig)
    (seed : Int) (hsame : ∀ i j, resultsPath (cfg i) = resultsPath (cfg j) → cfg i = cfg j)
    (hread : ∀ i r, ResultOf w seed (cfg i) r → w.readCsv (w.toCsv r) = .ok (norm r))
    (fs : Files) (hfs : ∀ i, fs (resultsPath (cfg i)) = none ∨
      ∃ r, ResultOf w seed (cfg i) r ∧ fs (resultsPath (cfg i)) = some (w.toCsv r))
    (g0 : ι → γ) (evs : List (Event γ ι)) (i : ι) :
    let s := cloudSysRun w cfg seed ⟨fs, fun _ => .start, g0⟩ evs
    (∀ e, s.pc i = .done (.error e) → ∃ g, (w.outcome (cfg i) seed g).1 = .error e) ∧
    (s.fs (resultsPath (cfg i)) = none ∨
      ∃ r, ResultOf w seed (cfg i) r ∧ s.fs (resultsPath (cfg i)) = some (w.toCsv r)) ∧
    (∀ r', s.pc i = .done (.ok r') → (∃ r, ResultOf w seed (cfg i) r ∧ SameRow norm r r') ∧
      ∃ r, ResultOf w seed (cfg i) r ∧ ∀ seed' g,
        evaluate w (cfg i) seed' s.fs g = (.ok (norm r), s.fs, g)) := by
  intro s
  have hinv : CloudSysInvP w norm cfg (fun _ _ => True)
      (fun i res => ∃ g, (w.outcome (cfg i) seed g).1 = res) s := by
    refine cloudSysRun_invP w hw norm cfg seed _ _ ?_ (fun i g _ => ⟨g, rfl⟩) hread evs _
      (fun j => ⟨hfs j, trivial⟩) ?_
    · intro i j h
      simp only [hsame i j h]
    · intro ev _
      cases ev <;> trivial
  obtain ⟨h1, h2⟩ := hinv i
  refine ⟨?_, h1, ?_⟩
  · intro e he
    rw [he] at h2
    exact h2
  · intro r' hr'
    rw [hr'] at h2
    refine ⟨h2.1, ?_⟩
    rcases h1 with h1 | ⟨r, h3, h4⟩
    · have := h2.2
      rw [h1] at this
      cases this
    · refine ⟨r, h3, fun seed' g => ?_⟩
      simp only [evaluate, h4, hread i r h3]

end

/-- Two attempts at one trial with results that are the states of their generators. -/
example (evs : List (Event Nat (Fin 2))) (r' : Nat) (i : Fin 2)
    (h : (cloudSysRun exGenWorld (fun _ : Fin 2 => exTrial) 7
      ⟨fun _ => none, fun _ => .start, ![5, 6]⟩ evs).pc i = .done (.ok r')) :
    ∃ r, ResultOf exGenWorld 7 exTrial r ∧ SameRow id r r' :=
  ((C48_cloud_any exGenWorld exGenWorld_hex id (fun _ : Fin 2 => exTrial) 7 (fun _ _ _ => rfl)
    (fun _ r _ => exGenWorld_read r) (fun _ => none) (fun _ => Or.inl rfl) ![5, 6] evs i).2.2 r' h).1

/-- **C48 (full statement for cloud storage, false).** As on a local disk (`C48_any_generators`), a row
that an evaluation has returned is the row that later evaluations return. -/
def C48_cloud_settled_full : Prop :=
  ∀ (ρ γ : Type) (w : World ρ γ) (c : TrialConfig) (seed : Int) (n : Nat) (g0 : Fin n → γ),
    HexDigest w → (∀ r, w.readCsv (w.toCsv r) = .ok r) →
    ∀ (evs : List (Event γ (Fin n))) (i : Fin n) (r : ρ) (g : γ),
      (cloudSysRun w (fun _ : Fin n => c) seed ⟨fun _ => none, fun _ => .start, g0⟩ evs).pc i
        = .done (.ok r) →
      (evaluate w c seed (cloudSysRun w (fun _ : Fin n => c) seed
        ⟨fun _ => none, fun _ => .start, g0⟩ evs).fs g).1 = .ok r

/-- It is false: a second attempt that has begun before the first has ended replaces the result by its
own, which differs if the attempts started with different generators. -/
theorem C48_cloud_settled_full_is_false : ¬ C48_cloud_settled_full := by
  intro h
  have := h Nat Nat exGenWorld exTrial 7 2 ![5, 6] exGenWorld_hex exGenWorld_read
    [.step 0, .step 1, .step 0, .step 0, .step 0, .step 0, .step 1, .step 1, .step 1] 0 5 9
    (by with_unfolding_all rfl)
  have h2 : (evaluate exGenWorld exTrial 7 (cloudSysRun exGenWorld (fun _ : Fin 2 => exTrial) 7
      ⟨fun _ => none, fun _ => .start, ![5, 6]⟩
      [.step 0, .step 1, .step 0, .step 0, .step 0, .step 0, .step 1, .step 1, .step 1]).fs 9).1 =
      .ok 6 := by with_unfolding_all rfl
  rw [h2] at this
  cases this

/-! ## C82 -/

/-- The results combined are those of exactly one attempt for every trial. -/
def OneAttemptEach {n m : Nat} (attempt : Fin n → Fin m) (tree : CombineTree (Fin n)) : Prop :=
  ∀ i, ∃ a, attempt a = i ∧ timesFed a tree = 1 ∧ ∀ b, attempt b = i → b ≠ a → timesFed b tree = 0

/-- The attempts whose results are combined have returned or raised. -/
def DataflowFinished (w : World ρ γ) (trials : List TrialConfig) (seed : Int) (fs : Files) (g : γ)
    {n : Nat} (attempt : Fin n → Fin trials.length) (evs : List (Event γ (Fin n)))
    (tree : CombineTree (Fin n)) : Prop :=
  ∀ a, timesFed a tree ≠ 0 → ∃ res, (runDataflow w trials seed fs g attempt evs).pc a = .done res

theorem oneAttempt_perm {n m : Nat} {attempt : Fin n → Fin m} {tree : CombineTree (Fin n)}
    (h : OneAttemptEach attempt tree) : ((accumulate tree).map attempt).Perm (List.finRange m) := by
  have hle : ∀ a, timesFed a tree ≤ 1 := by
    intro a
    obtain ⟨b, h1, h2, h3⟩ := h (attempt a)
    by_cases hab : a = b
    · rw [hab, h2]
    · rw [h3 a rfl hab]; omega
  have hnd : (accumulate tree).Nodup := by
    rw [List.nodup_iff_count_le_one]
    intro a
    rw [C82_combine]
    exact hle a
  have hfed : ∀ a ∈ accumulate tree, timesFed a tree ≠ 0 := by
    intro a ha
    rw [← C82_combine]
    exact Nat.pos_iff_ne_zero.1 (List.count_pos_iff.2 ha)
  have hinj : ∀ a ∈ accumulate tree, ∀ b ∈ accumulate tree, attempt a = attempt b → a = b := by
    intro a ha b hb hab
    obtain ⟨c, h1, h2, h3⟩ := h (attempt a)
    have ha' : a = c := by
      by_contra hne
      exact hfed a ha (h3 a rfl hne)
    have hb' : b = c := by
      by_contra hne
      exact hfed b hb (h3 b hab.symm hne)
    rw [ha', hb']
  rw [List.perm_ext_iff_of_nodup ((List.nodup_map_iff_inj_on hnd).2 hinj) (List.nodup_finRange m)]
  intro i
  simp only [List.mem_map, List.mem_finRange, iff_true]
  obtain ⟨a, h1, h2, -⟩ := h i
  exact ⟨a, List.count_pos_iff.1 (by rw [C82_combine, h2]; omega), h1⟩

theorem except_mapM_ok {α β : Type} (f : α → Except PyErr β) : ∀ l : List α,
    (∀ x ∈ l, ∃ y, f x = .ok y) → ∃ ys, l.mapM f = .ok ys
  | [], _ => ⟨[], rfl⟩
  | x :: l, h => by
    obtain ⟨y, hy⟩ := h x (by simp)
    obtain ⟨ys, hys⟩ := except_mapM_ok f l (fun z hz => h z (by simp [hz]))
    exact ⟨y :: ys, by rw [List.mapM_cons, hy, hys]; rfl⟩

/-- On cloud storage. -/
def OnCloud (path : String) : Prop :=
  "gs://".toList <+: path.toList ∨ "s3://".toList <+: path.toList ∨ "az://".toList <+: path.toList

theorem cloudPath_ok {path : String} : cloudPath path = .ok () ↔ OnCloud path := by
  unfold cloudPath OnCloud
  simp only [List.any_cons, List.any_nil, Bool.or_false, Bool.or_eq_true, List.isPrefixOf_iff_prefix]
  split
  · rename_i h
    simpa using h
  · rename_i h
    simpa using h

theorem cloudPath_error {path : String} (h : ¬ OnCloud path) : cloudPath path = .error .valueError := by
  unfold cloudPath
  rw [if_neg]
  simp only [List.any_cons, List.any_nil, Bool.or_false, Bool.or_eq_true,
    List.isPrefixOf_iff_prefix]
  exact h

theorem OnCloud.append {path : String} (h : OnCloud path) (s : String) : OnCloud (path ++ s) := by
  unfold OnCloud at *
  simp only [String.toList_append]
  rcases h with h | h | h
  · exact Or.inl (h.trans (List.prefix_append _ _))
  · exact Or.inr (Or.inl (h.trans (List.prefix_append _ _)))
  · exact Or.inr (Or.inr (h.trans (List.prefix_append _ _)))

theorem OnCloud.ne_empty {path : String} (h : OnCloud path) : path ≠ "" := by
  rintro rfl
  revert h
  unfold OnCloud
  decide +kernel

theorem OnCloud.temp {path : String} (h : OnCloud path) : OnCloud (tempResultPath path) := by
  unfold tempResultPath
  rw [if_neg h.ne_empty]
  exact h.append _

theorem OnCloud.results {c : TrialConfig} (h : OnCloud c.experimentDir) : OnCloud (resultsPath c) := by
  unfold resultsPath
  exact ((((h.append _).append _).append _).append _).append _

/-- **C82 (Dataflow, several attempts).** Trials with different result files are evaluated on cloud
storage, each by any number of attempts, also at the same time, some of which may never end, be
restarted or still run; results of an earlier, interrupted run may be there.  If the results of exactly
one attempt per trial are combined, the run returns exactly one row per trial, in some order, as read
back; these rows are in the combined file, and every trial's object holds its complete result.
Neither the number of attempts nor partly written results matter. -/
theorem C82_dataflow (w : World ρ γ) (hw : HexDigest w) (csv : FrameCsv ρ) (norm : ρ → ρ)
    (trials : List TrialConfig) (hne : trials ≠ []) (seed : Int) (g : γ)
    (hcloud : ∀ t ∈ trials, OnCloud t.experimentDir) (hnd : (trials.map resultsPath).Nodup)
    (row : TrialConfig → ρ) (hrow : ∀ t ∈ trials, (w.outcome t seed g).1 = .ok (row t))
    (hread : ∀ t ∈ trials, w.readCsv (w.toCsv (row t)) = .ok (norm (row t)) ∧
      norm (norm (row t)) = norm (row t))
    (hcsv : ∀ rows, (∀ r' ∈ rows, ∃ t ∈ trials, SameRow norm (row t) r') →
      csv.readCsv (csv.toCsv rows) = .ok (rows.map norm))
    (fs : Files) (hfs : ∀ t ∈ trials, fs (resultsPath t) = none ∨
      fs (resultsPath t) = some (w.toCsv (row t)))
    {n : Nat} (attempt : Fin n → Fin trials.length) (evs : List (Event γ (Fin n)))
    (hevs : ∀ a g', Event.restart a g' ∈ evs → g' = g)
    (tree : CombineTree (Fin n)) (htree : OneAttemptEach attempt tree)
    (hdone : DataflowFinished w trials seed fs g attempt evs tree)
    (temp : String) (htemp : OnCloud temp) (htemp2 : ∀ t ∈ trials, resultsPath t ≠ tempResultPath temp) :
    ∃ rows fs', loadDataflow w csv trials seed fs g attempt evs tree temp = some (.ok rows, fs') ∧
      rows.Perm (trials.map (fun t => norm (row t))) ∧
      (∃ txt, fs' (tempResultPath temp) = some txt ∧ csv.readCsv txt = .ok rows) ∧
      csv.readCsv (csv.toCsv rows) = .ok rows ∧
      ∀ t ∈ trials, fs' (resultsPath t) = some (w.toCsv (row t)) := by
  have hmem : ∀ i : Fin trials.length, trials[i] ∈ trials := fun i => List.getElem_mem _
  have hinv : CloudSysInvP w norm (fun a => trials[attempt a]) (fun _ g' => g' = g)
      (fun a res => res = .ok (row trials[attempt a])) (runDataflow w trials seed fs g attempt evs) := by
    refine cloudSysRun_invP w hw norm _ seed _ _ ?_ ?_ ?_ _ _ ?_ ?_
    · intro a b h
      simp only [paths_inj hnd (attempt a) (attempt b) h]
    · rintro a g' rfl
      exact hrow _ (hmem _)
    · intro a r hr
      cases hr
      exact (hread _ (hmem _)).1
    · intro a
      refine ⟨?_, rfl⟩
      rcases hfs _ (hmem (attempt a)) with h | h
      · exact Or.inl h
      · exact Or.inr ⟨_, rfl, h⟩
    · intro ev hev
      cases ev with
      | step a => trivial
      | restart a g' => exact hevs a g' hev
  have hfed : ∀ a ∈ accumulate tree, timesFed a tree ≠ 0 := by
    intro a ha
    rw [← C82_combine]
    exact Nat.pos_iff_ne_zero.1 (List.count_pos_iff.2 ha)
  have hend : ∀ a : Fin n, ∃ r', timesFed a tree ≠ 0 →
      SameRow norm (row trials[attempt a]) r' ∧
      (runDataflow w trials seed fs g attempt evs).pc a = .done (.ok r') ∧
      (runDataflow w trials seed fs g attempt evs).fs (resultsPath trials[attempt a]) =
        some (w.toCsv (row trials[attempt a])) := by
    intro a
    by_cases ha : timesFed a tree = 0
    · exact ⟨row trials[attempt a], fun h => absurd ha h⟩
    obtain ⟨res, hres⟩ := hdone a ha
    obtain ⟨h1, h2⟩ := hinv a
    rw [hres] at h2
    rcases res with e | r'
    · cases h2
    · obtain ⟨⟨r, hr, hs⟩, h4⟩ := h2
      cases hr
      refine ⟨r', fun _ => ⟨hs, hres, ?_⟩⟩
      rcases h1 with h1 | ⟨r, hr, h1⟩
      · rw [h1] at h4
        cases h4
      · cases hr
        exact h1
  choose R' hR using hend
  have hperm := oneAttempt_perm htree
  have hmap : (accumulate tree).mapM
      (fun a => ((runDataflow w trials seed fs g attempt evs).pc a).result) =
      some ((accumulate tree).map (fun a => .ok (R' a))) :=
    option_mapM_some _ _ _ (fun a ha => by rw [(hR a (hfed a ha)).2.1]; rfl)
  have hid : ((accumulate tree).map (fun a => (Except.ok (R' a) : Except PyErr ρ))).mapM id =
      .ok ((accumulate tree).map R') := by
    have := except_mapM_id_ok ((accumulate tree).map R')
    rwa [List.map_map] at this
  have hnonempty : ((accumulate tree).map R').isEmpty = false := by
    rw [List.isEmpty_eq_false_iff]
    intro h
    have h2 := hperm.length_eq
    rw [List.map_eq_nil_iff.1 h, List.length_finRange] at h2
    exact hne (List.length_eq_zero_iff.1 h2.symm)
  have hrows : ∀ r' ∈ (accumulate tree).map R', ∃ t ∈ trials, SameRow norm (row t) r' := by
    intro r' hr'
    obtain ⟨a, ha, rfl⟩ := List.mem_map.1 hr'
    exact ⟨trials[attempt a], hmem _, (hR a (hfed a ha)).1⟩
  have hnorm : ((accumulate tree).map R').map norm =
      (accumulate tree).map (fun a => norm (row trials[attempt a])) := by
    rw [List.map_map]
    refine List.map_congr_left ?_
    intro a ha
    simp only [Function.comp]
    rcases (hR a (hfed a ha)).1 with h | h
    · rw [h]
    · rw [h]; exact (hread _ (hmem _)).2
  have hidem : ((accumulate tree).map (fun a => norm (row trials[attempt a]))).map norm =
      (accumulate tree).map (fun a => norm (row trials[attempt a])) := by
    rw [List.map_map]
    exact List.map_congr_left (fun a _ => (hread _ (hmem _)).2)
  obtain ⟨us, hus⟩ := except_mapM_ok (fun t => cloudPath (resultsPath t)) trials
    (fun t ht => ⟨(), cloudPath_ok.2 (hcloud t ht).results⟩)
  refine ⟨(accumulate tree).map (fun a => norm (row trials[attempt a])),
    setFile (runDataflow w trials seed fs g attempt evs).fs (tempResultPath temp)
      (some (csv.toCsv ((accumulate tree).map R'))), ?_, ?_, ?_, ?_, ?_⟩
  · simp only [loadDataflow, hus, hmap, Option.map_some, hid, bind, Except.bind, concatFrames, hnonempty,
      Bool.false_eq_true, if_false, cloudPath_ok.2 htemp.temp, setFile_same, hcsv _ hrows, hnorm]
  · have h := hperm.map (fun i => norm (row trials[i]))
    rw [List.map_map] at h
    refine h.trans (List.Perm.of_eq ?_)
    refine List.ext_getElem (by simp) ?_
    intro i h1 h2
    simp
  · exact ⟨_, setFile_same _ _ _, by rw [hcsv _ hrows, hnorm]⟩
  · rw [hcsv, hidem]
    intro r' hr'
    obtain ⟨a, -, rfl⟩ := List.mem_map.1 hr'
    exact ⟨trials[attempt a], hmem _, Or.inr rfl⟩
  · intro t ht
    rw [setFile_other _ _ (htemp2 t ht)]
    obtain ⟨k, hk, rfl⟩ := List.getElem_of_mem ht
    obtain ⟨a, h1, h2, -⟩ := htree ⟨k, hk⟩
    have h3 := (hR a (by omega)).2.2
    simp only [h1] at h3
    exact h3

/-- **C82 (Dataflow, exceptions).** If the evaluation of a trial raises, so does the run, with the
exception of one of the trials, and nothing but results and pending files of trials is written: in
particular no combined file. -/
theorem C82_dataflow_raises (w : World ρ γ) (hw : HexDigest w) (csv : FrameCsv ρ) (norm : ρ → ρ)
    (trials : List TrialConfig) (seed : Int) (g : γ)
    (hcloud : ∀ t ∈ trials, OnCloud t.experimentDir) (hnd : (trials.map resultsPath).Nodup)
    (hread : ∀ t ∈ trials, ∀ r, (w.outcome t seed g).1 = .ok r → w.readCsv (w.toCsv r) = .ok (norm r))
    (t : TrialConfig) (ht : t ∈ trials) (e : PyErr) (hraise : (w.outcome t seed g).1 = .error e)
    (fs : Files) (hfs : ∀ t ∈ trials, fs (resultsPath t) = none)
    {n : Nat} (attempt : Fin n → Fin trials.length) (evs : List (Event γ (Fin n)))
    (hevs : ∀ a g', Event.restart a g' ∈ evs → g' = g)
    (tree : CombineTree (Fin n)) (htree : OneAttemptEach attempt tree)
    (hdone : DataflowFinished w trials seed fs g attempt evs tree)
    (temp : String) :
    ∃ e' fs', loadDataflow w csv trials seed fs g attempt evs tree temp = some (.error e', fs') ∧
      (∃ u ∈ trials, (w.outcome u seed g).1 = .error e') ∧
      ∀ p, (∀ u ∈ trials, p ≠ resultsPath u ∧ p ≠ pendingPath w u) → fs' p = fs p := by
  have hmem : ∀ i : Fin trials.length, trials[i] ∈ trials := fun i => List.getElem_mem _
  have hinv : CloudSysInvP w norm (fun a => trials[attempt a]) (fun _ g' => g' = g)
      (fun a res => res = (w.outcome trials[attempt a] seed g).1)
      (runDataflow w trials seed fs g attempt evs) := by
    refine cloudSysRun_invP w hw norm _ seed _ _ ?_ ?_ ?_ _ _ ?_ ?_
    · intro a b h
      simp only [paths_inj hnd (attempt a) (attempt b) h]
    · rintro a g' rfl; rfl
    · intro a r hr
      exact hread _ (hmem _) r hr.symm
    · intro a
      exact ⟨Or.inl (hfs _ (hmem (attempt a))), rfl⟩
    · intro ev hev
      cases ev with
      | step a => trivial
      | restart a g' => exact hevs a g' hev
  have hfed : ∀ a ∈ accumulate tree, timesFed a tree ≠ 0 := by
    intro a ha
    rw [← C82_combine]
    exact Nat.pos_iff_ne_zero.1 (List.count_pos_iff.2 ha)
  have hend : ∀ a : Fin n, ∃ res, timesFed a tree ≠ 0 →
      ((runDataflow w trials seed fs g attempt evs).pc a).result = some res ∧
      ∀ e', res = .error e' ↔ (w.outcome trials[attempt a] seed g).1 = .error e' := by
    intro a
    by_cases ha : timesFed a tree = 0
    · exact ⟨.error e, fun h => absurd ha h⟩
    obtain ⟨res, hres⟩ := hdone a ha
    obtain ⟨-, h2⟩ := hinv a
    rw [hres] at h2
    refine ⟨res, fun _ => ⟨by rw [hres]; rfl, ?_⟩⟩
    rcases res with e1 | r'
    · intro e'
      rw [← show (.error e1 : Except PyErr ρ) = _ from h2]
    · obtain ⟨⟨r, hr, -⟩, -⟩ := h2
      intro e'
      rw [← hr]
      constructor <;> intro h <;> cases h
  choose R hR using hend
  have hmap : (accumulate tree).mapM
      (fun a => ((runDataflow w trials seed fs g attempt evs).pc a).result) =
      some ((accumulate tree).map R) :=
    option_mapM_some _ _ _ (fun a ha => (hR a (hfed a ha)).1)
  have hfirst : ∀ l : List (Except PyErr ρ), (∃ e, .error e ∈ l) →
      ∃ e', l.mapM id = .error e' ∧ .error e' ∈ l := by
    intro l
    induction l with
    | nil => rintro ⟨e, he⟩; cases he
    | cons x l ih =>
      rintro ⟨e, he⟩
      rcases x with e1 | r
      · exact ⟨e1, rfl, by simp⟩
      · obtain ⟨e', h1, h2⟩ := ih ⟨e, by simpa using he⟩
        refine ⟨e', ?_, by simp [h2]⟩
        rw [List.mapM_cons, h1]
        rfl
  obtain ⟨k, hk, rfl⟩ := List.getElem_of_mem ht
  obtain ⟨a, h1, h2, -⟩ := htree ⟨k, hk⟩
  have ha : a ∈ accumulate tree := List.count_pos_iff.1 (by rw [C82_combine, h2]; omega)
  have hRa : R a = .error e := by
    refine ((hR a (hfed a ha)).2 e).2 ?_
    simp only [h1]
    exact hraise
  obtain ⟨e', h3, h4⟩ := hfirst ((accumulate tree).map R)
    ⟨e, List.mem_map.2 ⟨a, ha, hRa⟩⟩
  obtain ⟨b, hb, h5⟩ := List.mem_map.1 h4
  obtain ⟨us, hus⟩ := except_mapM_ok (fun t => cloudPath (resultsPath t)) trials
    (fun t ht => ⟨(), cloudPath_ok.2 (hcloud t ht).results⟩)
  refine ⟨e', (runDataflow w trials seed fs g attempt evs).fs, ?_, ⟨trials[attempt b], hmem _, ((hR b (hfed b hb)).2 e').1 h5⟩,
    fun p hp => C48_cloud_touched w _ seed evs _ p (fun a => hp _ (hmem (attempt a)))⟩
  simp only [loadDataflow, hus, hmap, Option.map_some, h3, bind, Except.bind]

/-- **C82 (Dataflow, places).** If the directory of a trial is not on cloud storage (no path of a result
is), the run is refused with a `ValueError` and leaves all objects as they are. -/
theorem C82_dataflow_refused (w : World ρ γ) (csv : FrameCsv ρ) (trials : List TrialConfig) (seed : Int)
    (g : γ) (t : TrialConfig) (ht : t ∈ trials) (hcloud : ¬ OnCloud (resultsPath t)) (fs : Files)
    {n : Nat} (attempt : Fin n → Fin trials.length) (evs : List (Event γ (Fin n)))
    (tree : CombineTree (Fin n)) (temp : String) :
    loadDataflow w csv trials seed fs g attempt evs tree temp = some (.error .valueError, fs) := by
  have h : ∀ l : List TrialConfig, t ∈ l →
      l.mapM (fun t => cloudPath (resultsPath t)) = .error .valueError := by
    intro l
    induction l with
    | nil => intro h; cases h
    | cons u l ih =>
      intro hu
      rw [List.mapM_cons]
      by_cases hc : OnCloud (resultsPath u)
      · rw [cloudPath_ok.2 hc]
        rcases List.mem_cons.1 hu with rfl | hu
        · exact absurd hc hcloud
        · simp only [bind, Except.bind]
          have := ih hu
          simp only [this]
      · rw [cloudPath_error hc]
        rfl
  simp only [loadDataflow, h trials ht]

/-- Several steps of one attempt. -/
theorem cloudSysRun_steps {ι : Type} [DecidableEq ι] (w : World ρ γ) (cfg : ι → TrialConfig) (seed : Int)
    (i : ι) (n : Nat) : ∀ s : Sys ρ γ ι,
    ((cloudSysRun w cfg seed s (List.replicate n (.step i))).fs,
      (cloudSysRun w cfg seed s (List.replicate n (.step i))).pc i,
      (cloudSysRun w cfg seed s (List.replicate n (.step i))).gen i) =
        (cloudTrialStep w (cfg i) seed)^[n] (s.fs, s.pc i, s.gen i) ∧
    ∀ j, j ≠ i → (cloudSysRun w cfg seed s (List.replicate n (.step i))).pc j = s.pc j := by
  induction n with
  | zero => intro s; exact ⟨rfl, fun _ _ => rfl⟩
  | succ n ih =>
    intro s
    obtain ⟨h1, h2⟩ := ih (cloudSysStep w cfg seed s (.step i))
    have h3 : cloudSysRun w cfg seed s (List.replicate (n + 1) (.step i)) =
        cloudSysRun w cfg seed (cloudSysStep w cfg seed s (.step i)) (List.replicate n (.step i)) := by
      rw [List.replicate_succ]; rfl
    rw [h3]
    refine ⟨?_, ?_⟩
    · rw [h1, Function.iterate_succ_apply]
      simp [cloudSysStep]
    · intro j hj
      rw [h2 j hj]
      simp [cloudSysStep, hj]

/-- Attempts can finish. -/
theorem dataflow_can_finish (w : World ρ γ) (trials : List TrialConfig) (seed : Int) (fs : Files) (g : γ)
    {n : Nat} (attempt : Fin n → Fin trials.length) :
    ∃ schedule : List (Fin n), ∀ a, ∃ res,
      (runDataflow w trials seed fs g attempt (schedule.map .step)).pc a = .done res := by
  have key : ∀ l : List (Fin n), l.Nodup → ∀ s : Sys ρ γ (Fin n),
      (∀ i ∈ l, s.pc i = .start) → ∃ schedule : List (Fin n),
        (∀ i ∈ l, ∃ res, (cloudSysRun w (fun a : Fin n => trials[attempt a]) seed s
          (schedule.map .step)).pc i = .done res) ∧
        ∀ i, i ∉ l → (cloudSysRun w (fun a : Fin n => trials[attempt a]) seed s
          (schedule.map .step)).pc i = s.pc i := by
    intro l
    induction l with
    | nil => intro _ s _; exact ⟨[], by simp, fun _ _ => rfl⟩
    | cons i l ih =>
      intro hnd s hs
      rw [List.nodup_cons] at hnd
      obtain ⟨k, -, hk⟩ := C48_cloud_steps w trials[attempt i] seed s.fs (s.gen i)
      obtain ⟨h1, h2⟩ := cloudSysRun_steps w (fun a : Fin n => trials[attempt a]) seed i k s
      rw [hs i (by simp), hk] at h1
      obtain ⟨sch, k1, k2⟩ := ih hnd.2 (cloudSysRun w (fun a : Fin n => trials[attempt a]) seed s
        (List.replicate k (.step i))) (by
          intro j hj
          rw [h2 j (fun e => hnd.1 (e ▸ hj))]
          exact hs j (by simp [hj]))
      have h3 : cloudSysRun w (fun a : Fin n => trials[attempt a]) seed s
          ((List.replicate k i ++ sch).map .step) =
          cloudSysRun w (fun a : Fin n => trials[attempt a]) seed
            (cloudSysRun w (fun a : Fin n => trials[attempt a]) seed s (List.replicate k (.step i)))
            (sch.map .step) := by
        simp only [List.map_append, List.map_replicate, cloudSysRun, List.foldl_append]
      refine ⟨List.replicate k i ++ sch, ?_, ?_⟩
      · intro j hj
        rw [h3]
        rcases List.mem_cons.1 hj with rfl | hj
        · rw [k2 j hnd.1]
          exact ⟨_, (congrArg (fun x => x.2.1) h1)⟩
        · exact k1 j hj
      · intro j hj
        rw [h3, k2 j (fun h => hj (by simp [h])), h2 j (fun h => hj (by simp [h]))]
  obtain ⟨sch, h, -⟩ := key (List.finRange n) (List.nodup_finRange _)
    ⟨fs, fun _ => .start, fun _ => g⟩ (fun _ _ => rfl)
  exact ⟨sch, fun i => h i (List.mem_finRange i)⟩

/-! ### Examples -/

/-- Two trials on cloud storage. -/
def exCloudTrials : List TrialConfig :=
  [{ exTrial with experimentDir := "gs://b/e" }, { exTrial2 with experimentDir := "gs://b/e" }]

/-- Three attempts: two at the first trial, one at the second. -/
def exAttempt : Fin 3 → Fin 2 := ![0, 0, 1]

/-- The first attempt at the first trial dies after it has begun to write and is started again; the
second attempt runs beside it. -/
def exAttemptEvents : List (Event Nat (Fin 3)) :=
  [.step 0, .step 1, .step 0, .step 1, .step 0, .restart 0 5, .step 2, .step 1, .step 2, .step 1,
    .step 0, .step 2, .step 1, .step 2, .step 2]

/-- The second attempt at the first trial is used. -/
def exAttemptTree : CombineTree (Fin 3) := .merge 2 ![.add .create 2, .add .create 1]

theorem exAttemptTree_once : OneAttemptEach exAttempt exAttemptTree := by
  unfold OneAttemptEach exAttempt exAttemptTree
  decide +kernel

theorem exAttempts_finished : DataflowFinished exPathWorld exCloudTrials 1 (fun _ => none) 5 exAttempt
    exAttemptEvents exAttemptTree := by
  have h : ∀ a, timesFed a exAttemptTree ≠ 0 → isDone ((runDataflow exPathWorld exCloudTrials 1
      (fun _ => none) 5 exAttempt exAttemptEvents).pc a) = true := by decide +kernel
  intro a ha
  have hi := h a ha
  rcases hp : (runDataflow exPathWorld exCloudTrials 1 (fun _ => none) 5 exAttempt exAttemptEvents).pc a
    with _ | _ | _ | _ | _ | _ | _ | res
  case done => exact ⟨res, rfl⟩
  all_goals rw [hp] at hi; cases hi

example : ∃ rows fs', loadDataflow exPathWorld exFrameCsv exCloudTrials 1 (fun _ => none) 5 exAttempt
      exAttemptEvents exAttemptTree "gs://b/e" = some (.ok rows, fs') ∧
    rows.Perm (exCloudTrials.map (fun t => id (resultsPath t).length)) := by
  obtain ⟨rows, fs', h1, h2, -⟩ := C82_dataflow exPathWorld exGenWorld_hex exFrameCsv id exCloudTrials
    (by decide) 1 5 (by unfold OnCloud; decide +kernel) (by decide +kernel)
    (fun t => (resultsPath t).length) (fun _ _ => rfl) (fun _ _ => ⟨exGenWorld_read _, rfl⟩)
    (fun rows _ => by rw [List.map_id]; exact exFrameCsv_read rows) (fun _ => none)
    (fun _ _ => Or.inl rfl) exAttempt exAttemptEvents (by
      intro a g' h
      simp [exAttemptEvents] at h
      exact h.2) exAttemptTree exAttemptTree_once exAttempts_finished "gs://b/e"
    (by unfold OnCloud; decide +kernel) (by decide +kernel)
  exact ⟨rows, fs', h1, h2⟩

/-- A trial that raises, and a directory on a local disk. -/
example : (loadDataflow { exPathWorld with outcome := fun c s g =>
        if c.descriptor = "t" then (.error .keyError, g) else exPathWorld.outcome c s g }
      exFrameCsv exCloudTrials 1 (fun _ => none) 5 exAttempt
      exAttemptEvents exAttemptTree "gs://b/e").map (·.1) = some (.error .keyError) ∧
    (loadDataflow exPathWorld exFrameCsv [exTrial, exTrial2] 1 (fun _ => none) 5 exAttempt
      exAttemptEvents exAttemptTree "gs://b/e").map (·.1) = some (.error .valueError) := by
  decide +kernel

/-! ## C83 -/

variable {S C : Type}

/-- Loading on Dataflow with the modelled trials. -/
theorem dataflow_load (base : World Row (Nat → Nat)) (hw : HexDigest base) (csv : FrameCsv Row)
    (E : TrialEnv S C) (points : Int → PointSource)
    (D : Dict String DataSet) (hD : (D.map (·.1)).Nodup) (hDne : D ≠ [])
    (hnames : ∀ nd ∈ D, ':' ∉ nd.1.toList ∧ '/' ∉ nd.1.toList)
    (ts : List (TrialTemplate Nat)) (hts : ts ≠ [])
    (htext : ∀ nd ∈ D, (ts.map (trialText E.text nd.2)).Nodup)
    (dir analysisType : String) (hdir : OnCloud dir) (seed : Int) (norm : Row → Row)
    (hread : ∀ row, DesignGives E points analysisType seed D ts row →
      base.readCsv (base.toCsv row) = .ok (norm row) ∧ norm (norm row) = norm row)
    (hcsv : ∀ rows : List Row, (∀ r' ∈ rows, ∃ r, DesignGives E points analysisType seed D ts r ∧
      SameRow norm r r') → csv.readCsv (csv.toCsv rows) = .ok (rows.map norm))
    (g : Nat → Nat) (trials : List TrialConfig)
    (htrials : trials = designTrials dir analysisType (driverDescriptors E.text D ts) (D.map (·.1)))
    {n : Nat} (attempt : Fin n → Fin trials.length) (evs : List (Event (Nat → Nat) (Fin n)))
    (hevs : ∀ a g', Event.restart a g' ∈ evs → g' = g)
    (tree : CombineTree (Fin n)) (htree : OneAttemptEach attempt tree)
    (hdone : DataflowFinished (driverWorld base E points D ts) trials seed (fun _ => none) g attempt evs
      tree) (results : List Row)
    (hresults : freshRows { E with points := points seed } analysisType D (withGenerators ts g) =
      results.map .ok) :
    ∃ rows fs', loadDataflow (driverWorld base E points D ts) csv trials seed (fun _ => none) g
        attempt evs tree dir = some (.ok rows, fs') ∧
      rows.Perm (results.map norm) ∧ csv.readCsv (csv.toCsv rows) = .ok rows ∧
      ∃ txt, fs' (tempResultPath dir) = some txt ∧ csv.readCsv txt = .ok rows := by
  obtain ⟨h1, h2⟩ := driver_design E.text D hD hnames ts htext dir analysisType
  have h4 := driver_outcomes base E points D hD ts dir analysisType seed g id
  have hid : (fun r : Except PyErr Row => r.map id) = id := by
    funext r
    rcases r with e | r <;> rfl
  rw [hid, List.map_id, hresults, ← h1, ← htrials] at h4
  have hdirs : ∀ c ∈ trials, c.experimentDir = dir := by
    intro c hc
    rw [htrials, h1] at hc
    exact (mem_generated hc).2
  have hgive : ∀ c ∈ trials,
      ∀ r, ((driverWorld base E points D ts).outcome c seed g).1 = .ok r →
      DesignGives E points analysisType seed D ts r := by
    intro c hc r hr
    rw [htrials, h1] at hc
    obtain ⟨nd, hnd, t, ht, e1, e2, e3, -, e5⟩ :=
      mem_driver_trials E.text D hD ts dir analysisType c hc
    have h := (driver_resultOf base E points D ts seed c nd t e1 e2 e3 r).1 ⟨g, hr⟩
    rw [e5] at h
    exact ⟨nd, hnd, t, ht, h⟩
  have hmapid : ∀ x : Except PyErr Row, x.map id = x := fun x => by rcases x with e | r <;> rfl
  have hrow : ∀ c ∈ trials, ∃ r, ((driverWorld base E points D ts).outcome c seed g).1 = .ok r := by
    intro c hc
    have h : (((driverWorld base E points D ts).outcome c seed g).1.map id) ∈
        trials.map (fun t => ((driverWorld base E points D ts).outcome t seed g).1.map id) :=
      List.mem_map.2 ⟨c, hc, rfl⟩
    rw [h4, hmapid] at h
    obtain ⟨r, -, hr⟩ := List.mem_map.1 h
    exact ⟨r, hr.symm⟩
  let row : TrialConfig → Row := fun c =>
    match ((driverWorld base E points D ts).outcome c seed g).1 with
    | .ok r => r
    | .error _ => []
  have hrow2 : ∀ c ∈ trials, ((driverWorld base E points D ts).outcome c seed g).1 = .ok (row c) := by
    intro c hc
    obtain ⟨r, hr⟩ := hrow c hc
    simp only [row, hr]
  have hres : trials.map row = results := by
    have h5 : trials.map (fun t => ((driverWorld base E points D ts).outcome t seed g).1.map id) =
        (trials.map row).map (fun r => (.ok r : Except PyErr Row)) := by
      rw [List.map_map]
      refine List.map_congr_left ?_
      intro c hc
      rw [hmapid, hrow2 c hc]
      rfl
    rw [h5] at h4
    exact List.map_injective_iff.2 (fun a b h => by injection h) h4
  obtain ⟨rows, fs', k1, k2, k3, k4, -⟩ := C82_dataflow (driverWorld base E points D ts) hw csv norm
    trials (by rw [htrials, h1]; exact driver_all_ne E.text D hDne ts hts dir analysisType) seed g
    (fun c hc => by rw [hdirs c hc]; exact hdir) (by rw [htrials, h1]; exact h2) row hrow2
    (fun c hc => hread _ (hgive c hc _ (hrow2 c hc))) (by
      intro rows hrows
      refine hcsv rows ?_
      intro r' hr'
      obtain ⟨c, hc, h⟩ := hrows r' hr'
      exact ⟨row c, hgive c hc _ (hrow2 c hc), h⟩) (fun _ => none) (fun _ _ => Or.inl rfl) attempt evs
    hevs tree htree hdone dir hdir (fun c hc => by
      have := C82_temp_file c (by rw [hdirs c hc]; exact hdir.ne_empty)
      rwa [hdirs c hc] at this)
  refine ⟨rows, fs', k1, ?_, k4, k3⟩
  rw [← hres, List.map_map]
  exact k2

/-- **C83 (the rows on Dataflow).** A run of the driver on Dataflow that has finished, with directory and
output file on cloud storage, an empty bucket and descriptions that differ, returns the results of all
trials on all data sets as they are read back, in some order, if all trials yield rows.  Every trial
may be attempted any number of times, and every attempt starts with the generators as they were
created.  The output file has these rows. -/
theorem C83_dataflow_rows (base : World Row (Nat → Nat)) (hw : HexDigest base) (csv : FrameCsv Row)
    (E : TrialEnv S C) (points : Int → PointSource)
    (D : Dict String DataSet) (hD : (D.map (·.1)).Nodup) (hDne : D ≠ [])
    (hnames : ∀ nd ∈ D, ':' ∉ nd.1.toList ∧ '/' ∉ nd.1.toList)
    (ts : List (TrialTemplate Nat)) (hts : ts ≠ [])
    (htext : ∀ nd ∈ D, (ts.map (trialText E.text nd.2)).Nodup)
    (dir analysisType : String) (hdir : OnCloud dir) (seed : Int) (norm : Row → Row)
    (hread : ∀ row, DesignGives E points analysisType seed D ts row →
      base.readCsv (base.toCsv row) = .ok (norm row) ∧ norm (norm row) = norm row)
    (hcsv : ∀ rows : List Row, (∀ r' ∈ rows, ∃ r, DesignGives E points analysisType seed D ts r ∧
      SameRow norm r r') → csv.readCsv (csv.toCsv rows) = .ok (rows.map norm))
    (outputFile : String) (hout : OnCloud outputFile) (g : Nat → Nat) (trials : List TrialConfig)
    (htrials : trials = designTrials dir analysisType (driverDescriptors E.text D ts) (D.map (·.1)))
    {n : Nat} (attempt : Fin n → Fin trials.length) (evs : List (Event (Nat → Nat) (Fin n)))
    (hevs : ∀ a g', Event.restart a g' ∈ evs → g' = g)
    (tree : CombineTree (Fin n)) (htree : OneAttemptEach attempt tree)
    (hdone : DataflowFinished (driverWorld base E points D ts) trials seed (fun _ => none) g attempt evs
      tree) (results : List Row)
    (hresults : freshRows { E with points := points seed } analysisType D (withGenerators ts g) =
      results.map .ok) :
    ∃ rows fs', driverDataflow base csv E points D ts dir analysisType seed outputFile (fun _ => none) g
        (htrials ▸ attempt) evs tree = some (.ok rows, fs') ∧
      rows.Perm (results.map norm) ∧
      ∃ txt, fs' outputFile = some txt ∧ csv.readCsv txt = .ok rows := by
  obtain ⟨rows, fs', h1, h2, h3⟩ := dataflow_load base hw csv E points D hD hDne hnames ts hts htext dir
    analysisType hdir seed norm hread hcsv g trials htrials attempt evs hevs tree htree hdone results
    hresults
  subst htrials
  refine ⟨rows, setFile fs' outputFile (some (csv.toCsv rows)), ?_, h2, _, setFile_same _ _ _, h3.1⟩
  unfold driverDataflow executeDataflow
  simp only [h1, Option.map_some, cloudPath_ok.2 hout]

/-- **C83 (output file on Dataflow).** With an output file that is not on cloud storage the same run
ends with a `ValueError`, but only after all trials have been evaluated and combined. -/
theorem C83_dataflow_local_output (base : World Row (Nat → Nat)) (hw : HexDigest base)
    (csv : FrameCsv Row) (E : TrialEnv S C) (points : Int → PointSource)
    (D : Dict String DataSet) (hD : (D.map (·.1)).Nodup) (hDne : D ≠ [])
    (hnames : ∀ nd ∈ D, ':' ∉ nd.1.toList ∧ '/' ∉ nd.1.toList)
    (ts : List (TrialTemplate Nat)) (hts : ts ≠ [])
    (htext : ∀ nd ∈ D, (ts.map (trialText E.text nd.2)).Nodup)
    (dir analysisType : String) (hdir : OnCloud dir) (seed : Int) (norm : Row → Row)
    (hread : ∀ row, DesignGives E points analysisType seed D ts row →
      base.readCsv (base.toCsv row) = .ok (norm row) ∧ norm (norm row) = norm row)
    (hcsv : ∀ rows : List Row, (∀ r' ∈ rows, ∃ r, DesignGives E points analysisType seed D ts r ∧
      SameRow norm r r') → csv.readCsv (csv.toCsv rows) = .ok (rows.map norm))
    (outputFile : String) (hout : ¬ OnCloud outputFile) (g : Nat → Nat) (trials : List TrialConfig)
    (htrials : trials = designTrials dir analysisType (driverDescriptors E.text D ts) (D.map (·.1)))
    {n : Nat} (attempt : Fin n → Fin trials.length) (evs : List (Event (Nat → Nat) (Fin n)))
    (hevs : ∀ a g', Event.restart a g' ∈ evs → g' = g)
    (tree : CombineTree (Fin n)) (htree : OneAttemptEach attempt tree)
    (hdone : DataflowFinished (driverWorld base E points D ts) trials seed (fun _ => none) g attempt evs
      tree) (results : List Row)
    (hresults : freshRows { E with points := points seed } analysisType D (withGenerators ts g) =
      results.map .ok) :
    ∃ rows fs', driverDataflow base csv E points D ts dir analysisType seed outputFile (fun _ => none) g
        (htrials ▸ attempt) evs tree = some (.error .valueError, fs') ∧
      rows.Perm (results.map norm) ∧
      ∃ txt, fs' (dir ++ "/temp_result.csv") = some txt ∧ csv.readCsv txt = .ok rows := by
  obtain ⟨rows, fs', h1, h2, h3, h4⟩ := dataflow_load base hw csv E points D hD hDne hnames ts hts htext
    dir analysisType hdir seed norm hread hcsv g trials htrials attempt evs hevs tree htree hdone results
    hresults
  subst htrials
  refine ⟨rows, fs', ?_, h2, ?_⟩
  · unfold driverDataflow executeDataflow
    simp only [h1, Option.map_some, cloudPath_error hout]
  · rw [tempResultPath, if_neg hdir.ne_empty] at h4
    exact h4

/-- **C83 (directory on Dataflow).** With a directory of intermediate results that is not on cloud
storage a run on Dataflow is refused with a `ValueError` and writes nothing. -/
theorem C83_dataflow_local_dir (w : World ρ γ) (csv : FrameCsv ρ) (dir analysisType : String)
    (descs : List Descriptor) (names : List String) (hdir : ':' ∉ dir.toList)
    (hnames : ∀ n ∈ names, ':' ∉ n.toList) (hdescs : ∀ d ∈ descs, ∀ n ∈ names, ':' ∉ (d n).1.toList)
    (hne : names ≠ []) (hd : descs ≠ []) (seed : Int) (outputFile : String) (fs : Files) (g : γ) {n : Nat}
    (attempt : Fin n → Fin (designTrials dir analysisType descs names).length)
    (evs : List (Event γ (Fin n))) (tree : CombineTree (Fin n)) :
    executeDataflow w csv dir analysisType descs names seed outputFile fs g attempt evs tree =
      some (.error .valueError, fs) := by
  have hex : ∃ t, t ∈ designTrials dir analysisType descs names := by
    rcases names with _ | ⟨nm, names⟩
    · exact absurd rfl hne
    rcases descs with _ | ⟨d, descs⟩
    · exact absurd rfl hd
    refine ⟨⟨dir, nm, (d nm).1, (d nm).2, analysisType⟩, ?_⟩
    simp [designTrials, experimentTrials, removeDuplicatesFrom]
  obtain ⟨t, ht⟩ := hex
  have ht2 : t ∈ names.flatMap (experimentTrials dir analysisType descs) := by
    have h : ∀ (l : List TrialConfig) seen, t ∈ removeDuplicatesFrom seen l → t ∈ l := by
      intro l
      induction l with
      | nil => intro seen h; exact h
      | cons u l ih =>
        intro seen h
        simp only [removeDuplicatesFrom] at h
        split at h
        · exact List.mem_cons_of_mem _ (ih _ h)
        · rcases List.mem_cons.1 h with rfl | h
          · simp
          · exact List.mem_cons_of_mem _ (ih _ h)
    exact h _ _ ht
  have hcol : ':' ∉ (resultsPath t).toList := by
    obtain ⟨nm, hnm, h2⟩ := List.mem_flatMap.1 ht2
    obtain ⟨d, hd, rfl⟩ := List.mem_map.1 h2
    unfold resultsPath
    simp only [String.toList_append, List.mem_append, not_or]
    exact ⟨⟨⟨⟨⟨hdir, by decide⟩, hnames nm hnm⟩, by decide⟩, hdescs d hd nm hnm⟩, by decide⟩
  have hno : ¬ OnCloud (resultsPath t) := by
    rintro (h | h | h) <;> exact hcol (h.subset (by decide))
  unfold executeDataflow
  rw [C82_dataflow_refused w csv _ seed g t ht hno fs attempt evs tree dir]
  rfl

/-- The first round on two data sets, with any attempts: there is a run that finishes, and it ends with
the rows if the output file is in the bucket. -/
example (ts : List (TrialTemplate Nat)) (hts : ts = factorialTrials m3TrialLevels 1) (g : Nat → Nat)
    (trials : List TrialConfig) (htrials : trials =
      designTrials "gs://b/e" "" (driverDescriptors exEnv.text exRunDesign ts) (exRunDesign.map (·.1)))
    {n : Nat} (attempt : Fin n → Fin trials.length) (tree : CombineTree (Fin n))
    (htree : OneAttemptEach attempt tree) :
    ∃ (evs : List (Event (Nat → Nat) (Fin n))) (results rows : List Row) (fs1 fs2 : Files),
      driverDataflow exRowWorld exRowsCsv exEnv (fun _ => exEnv.points) exRunDesign ts "gs://b/e" "" 1
        "gs://b/out.csv" (fun _ => none) g (htrials ▸ attempt) evs tree = some (.ok rows, fs1) ∧
      freshRows { exEnv with points := exEnv.points } "" exRunDesign (withGenerators ts g) =
        results.map .ok ∧ rows.Perm (results.map id) ∧
      driverDataflow exRowWorld exRowsCsv exEnv (fun _ => exEnv.points) exRunDesign ts "gs://b/e" "" 1
        "out.csv" (fun _ => none) g (htrials ▸ attempt) evs tree = some (.error .valueError, fs2) := by
  obtain ⟨schedule, hdone⟩ := dataflow_can_finish
    (driverWorld exRowWorld exEnv (fun _ => exEnv.points) exRunDesign ts) trials 1 (fun _ => none) g
    attempt
  have hres : ∃ results : List Row, freshRows { exEnv with points := exEnv.points } "" exRunDesign
      (withGenerators ts g) = results.map .ok := by
    have h : ∀ x ∈ freshRows { exEnv with points := exEnv.points } "" exRunDesign
        (withGenerators ts g), ∃ r, x = .ok r := by
      intro x hx
      obtain ⟨nd, hnd, hx⟩ := List.mem_flatMap.1 hx
      obtain ⟨tg, htg, rfl⟩ := List.mem_map.1 hx
      obtain ⟨ti, hti, rfl⟩ := List.mem_map.1 htg
      have ht : ti.1 ∈ ts := (List.mem_zipIdx' hti).2 ▸ List.getElem_mem _
      obtain ⟨r1, r2, r3, r4⟩ := firstRound_runnable exEnv 1 exRunDesign exRunDesign_publishers ti.1
        (hts ▸ ht) nd hnd
      exact (C97_returns_row { exEnv with points := exEnv.points } nd.1 nd.2
        (ti.1.update id nd.2.publisherCount).desc "" (g ti.2)).2 ⟨r1, r2, r3, r4⟩
    generalize freshRows { exEnv with points := exEnv.points } "" exRunDesign
      (withGenerators ts g) = l at h ⊢
    induction l with
    | nil => exact ⟨[], rfl⟩
    | cons x l ih =>
      obtain ⟨r, hr⟩ := h x (by simp)
      obtain ⟨rs, hrs⟩ := ih (fun y hy => h y (by simp [hy]))
      exact ⟨r :: rs, by rw [hr, hrs]; rfl⟩
  obtain ⟨results, hres⟩ := hres
  have hcloud : OnCloud "gs://b/e" := by unfold OnCloud; decide +kernel
  have htexts : ∀ nd ∈ exRunDesign, (ts.map (trialText exEnv.text nd.2)).Nodup := fun nd hnd =>
    hts ▸ firstRound_texts exEnv.text fracText_good 1 nd.2 (exRunDesign_publishers nd hnd)
  have hno : ∀ a g', Event.restart a g' ∈ schedule.map (Event.step (γ := Nat → Nat)) → g' = g := by
    intro a g' h
    obtain ⟨_, -, h⟩ := List.mem_map.1 h
    cases h
  obtain ⟨rows, fs1, h1, h2, -⟩ := C83_dataflow_rows exRowWorld exRowWorld_hex exRowsCsv exEnv
    (fun _ => exEnv.points) exRunDesign (by decide) (by simp [exRunDesign]) exRunDesign_names ts
    (hts ▸ firstRound_ne 1) htexts "gs://b/e" "" hcloud 1 id
    (fun row _ => ⟨exReadCode_exWriteCode row, rfl⟩)
    (fun rows _ => by rw [List.map_id]; exact exReadCode_exWriteCode rows) "gs://b/out.csv"
    (by unfold OnCloud; decide +kernel) g trials htrials attempt (schedule.map .step) hno tree htree
    (fun a _ => hdone a) results hres
  obtain ⟨rows', fs2, h3, -⟩ := C83_dataflow_local_output exRowWorld exRowWorld_hex exRowsCsv exEnv
    (fun _ => exEnv.points) exRunDesign (by decide) (by simp [exRunDesign]) exRunDesign_names ts
    (hts ▸ firstRound_ne 1) htexts "gs://b/e" "" hcloud 1 id
    (fun row _ => ⟨exReadCode_exWriteCode row, rfl⟩)
    (fun rows _ => by rw [List.map_id]; exact exReadCode_exWriteCode rows) "out.csv"
    (by unfold OnCloud; decide +kernel) g trials htrials attempt (schedule.map .step) hno tree htree
    (fun a _ => hdone a) results hres
  exact ⟨schedule.map .step, results, rows, fs1, fs2, h1, hres, h2, h3⟩

/-- A local directory. -/
example : executeDataflow exPathWorld exFrameCsv "d/e" "" [fun _ => ("m", 0)] ["a", "b"] 1
    "gs://b/out.csv" (fun _ => none) 5 (n := 0) (fun i => i.elim0) [] .create =
      some (.error .valueError, fun _ => none) :=
  C83_dataflow_local_dir exPathWorld exFrameCsv "d/e" "" [fun _ => ("m", 0)] ["a", "b"] (by decide)
    (by decide) (by decide) (by decide) (by decide) 1 "gs://b/out.csv" (fun _ => none) 5 _ [] .create

end Verif
