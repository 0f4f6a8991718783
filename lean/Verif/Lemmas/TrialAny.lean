import Verif.Lemmas.Trial

/-!
# Lemmas about trial evaluations with results that depend on shared generators
-/

namespace Verif

variable {ρ γ : Type}

/-- A file content from which the evaluation of a trial recovers whose outcomes satisfy `P`. -/
def RecoverableP (w : World ρ γ) (P : Except PyErr ρ → Prop) : Option Text → Prop
  | none => True
  | some txt => (∃ e, w.readCsv txt = .error e) ∨ ∃ r, P (.ok r) ∧ txt = w.toCsv r

/-- Invariant of one evaluation; `norm r` is what reading the text of `r` gives. -/
def TaskInvP (w : World ρ γ) (norm : ρ → ρ) (P : Except PyErr ρ → Prop) (x : Option Text) : Pc ρ → Prop
  | .start => RecoverableP w P x
  | .reading => RecoverableP w P x ∧ x.isSome
  | .unlinking => RecoverableP w P x ∧ x.isSome
  | .pending _ => RecoverableP w P x
  | .computing => RecoverableP w P x
  | .writing r _ => P (.ok r) ∧ RecoverableP w P x
  | .cleanup r => P (.ok r) ∧ x = some (w.toCsv r)
  | .done res => RecoverableP w P x ∧ match res with
    | .error e => P (.error e)
    | .ok r' => ∃ r, P (.ok r) ∧ x = some (w.toCsv r) ∧ (r' = r ∨ r' = norm r)

theorem TaskInvP.recoverable {w : World ρ γ} {norm : ρ → ρ} {P : Except PyErr ρ → Prop} {x : Option Text}
    {pc : Pc ρ} (h : TaskInvP w norm P x pc) : RecoverableP w P x := by
  cases pc with
  | start => exact h
  | reading => exact h.1
  | unlinking => exact h.1
  | pending k => exact h
  | computing => exact h
  | writing r k => exact h.2
  | cleanup r =>
    obtain ⟨h1, h2⟩ := h
    rw [h2]
    exact Or.inr ⟨r, h1, rfl⟩
  | done res => exact h.1

theorem trialStep_invP (w : World ρ γ) (hw : HexDigest w) (c : TrialConfig) (seed : Int)
    (P : Except PyErr ρ → Prop) (hP : ∀ g, P (w.outcome c seed g).1)
    (norm : ρ → ρ) (hread : ∀ r, P (.ok r) → w.readCsv (w.toCsv r) = .ok (norm r))
    (htorn : ∀ r, P (.ok r) → TornUnreadable w (w.toCsv r))
    (fs : Files) (pc : Pc ρ) (g : γ) (h : TaskInvP w norm P (fs (resultsPath c)) pc) :
    let s := trialStep w c seed (fs, pc, g)
    TaskInvP w norm P (s.1 (resultsPath c)) s.2.1 := by
  have hne := path_ne_pending w hw c c
  cases pc with
  | start =>
    simp only [trialStep]
    by_cases hs : (fs (resultsPath c)).isSome
    · rw [if_pos hs]; exact ⟨h, hs⟩
    · rw [if_neg hs]; exact h
  | reading =>
    obtain ⟨h2, h3⟩ := h
    rcases hf : fs (resultsPath c) with _ | txt
    · rw [hf] at h3; cases h3
    · rcases hr : w.readCsv txt with e | t
      · simp only [trialStep, hf, hr]
        exact ⟨hf ▸ h2, rfl⟩
      · simp only [trialStep, hf, hr]
        rw [hf] at h2
        rcases h2 with ⟨e, he⟩ | ⟨r, hr1, hr2⟩
        · rw [hr] at he; cases he
        · have ht : t = norm r := by
            rw [hr2, hread r hr1] at hr
            exact (Except.ok.inj hr).symm
          exact ⟨Or.inr ⟨r, hr1, hr2⟩, r, hr1, by rw [hr2], Or.inr ht⟩
  | unlinking =>
    obtain ⟨h2, h3⟩ := h
    rcases hf : fs (resultsPath c) with _ | txt
    · rw [hf] at h3; cases h3
    · simp only [trialStep, hf]
      rw [setFile_same]
      trivial
  | pending k =>
    simp only [trialStep]
    rw [setFile_other _ _ hne]
    split <;> exact h
  | computing =>
    have h3 := hP g
    rcases ho : w.outcome c seed g with ⟨e | r, g'⟩
    · simp only [trialStep, ho]
      rw [ho] at h3
      exact ⟨h, h3⟩
    · simp only [trialStep, ho]
      rw [ho] at h3
      exact ⟨h3, h⟩
  | writing r k =>
    obtain ⟨h1, h2⟩ := h
    simp only [trialStep]
    rw [setFile_same]
    by_cases hk : k * (w.buffer + 1) < (w.toCsv r).length
    · rw [if_pos hk]
      exact ⟨h1, Or.inl (htorn r h1 k hk)⟩
    · rw [if_neg hk, torn_full w _ k hk]
      exact ⟨h1, rfl⟩
  | cleanup r =>
    obtain ⟨h1, h2⟩ := h
    simp only [trialStep]
    rw [setFile_other _ _ hne, h2]
    exact ⟨Or.inr ⟨r, h1, rfl⟩, r, h1, rfl, Or.inl rfl⟩
  | done res => exact h

section system
variable {ι : Type} [DecidableEq ι]

/-- Invariant of the system. -/
def SysInvP (w : World ρ γ) (norm : ρ → ρ) (cfg : ι → TrialConfig) (P : ι → Except PyErr ρ → Prop)
    (s : Sys ρ γ ι) : Prop :=
  ∀ i, TaskInvP w norm (P i) (s.fs (resultsPath (cfg i))) (s.pc i)

theorem sysStep_invP (w : World ρ γ) (hw : HexDigest w) (cfg : ι → TrialConfig) (seed : Int)
    (hinj : ∀ i j, resultsPath (cfg i) = resultsPath (cfg j) → i = j)
    (P : ι → Except PyErr ρ → Prop) (hP : ∀ i g, P i (w.outcome (cfg i) seed g).1)
    (norm : ρ → ρ) (hread : ∀ i r, P i (.ok r) → w.readCsv (w.toCsv r) = .ok (norm r))
    (htorn : ∀ i r, P i (.ok r) → TornUnreadable w (w.toCsv r))
    (s : Sys ρ γ ι) (h : SysInvP w norm cfg P s) (ev : Event γ ι) :
    SysInvP w norm cfg P (sysStep w cfg seed s ev) := by
  cases ev with
  | step i =>
    intro j
    by_cases hj : j = i
    · subst hj
      have := trialStep_invP w hw (cfg j) seed (P j) (hP j) norm (hread j) (htorn j) s.fs (s.pc j)
        (s.gen j) (h j)
      simpa [sysStep] using this
    · have hf := trialStep_frame w (cfg i) seed s.fs (s.pc i) (s.gen i) (resultsPath (cfg j))
        (fun e => hj (hinj _ _ e)) (path_ne_pending w hw _ _)
      have := h j
      simp only [sysStep, if_neg hj]
      rw [hf]
      exact this
  | restart i g =>
    intro j
    by_cases hj : j = i
    · subst hj
      simp only [sysStep, if_true]
      exact (h j).recoverable
    · simp only [sysStep, if_neg hj]
      exact h j

theorem sysRun_invP (w : World ρ γ) (hw : HexDigest w) (cfg : ι → TrialConfig) (seed : Int)
    (hinj : ∀ i j, resultsPath (cfg i) = resultsPath (cfg j) → i = j)
    (P : ι → Except PyErr ρ → Prop) (hP : ∀ i g, P i (w.outcome (cfg i) seed g).1)
    (norm : ρ → ρ) (hread : ∀ i r, P i (.ok r) → w.readCsv (w.toCsv r) = .ok (norm r))
    (htorn : ∀ i r, P i (.ok r) → TornUnreadable w (w.toCsv r))
    (evs : List (Event γ ι)) : ∀ (s : Sys ρ γ ι), SysInvP w norm cfg P s →
      SysInvP w norm cfg P (sysRun w cfg seed s evs) := by
  induction evs with
  | nil => intro s h; exact h
  | cons ev evs ih =>
    intro s h
    exact ih _ (sysStep_invP w hw cfg seed hinj P hP norm hread htorn s h ev)

/-- A trial whose result is on disk and that is not being computed. -/
def Settled (w : World ρ γ) (norm : ρ → ρ) (r : ρ) (x : Option Text) : Pc ρ → Prop
  | .start => x = some (w.toCsv r)
  | .reading => x = some (w.toCsv r)
  | .done res => (res = .ok r ∨ res = .ok (norm r)) ∧ x = some (w.toCsv r)
  | _ => False

theorem Settled.file {w : World ρ γ} {norm : ρ → ρ} {r : ρ} {x : Option Text} {pc : Pc ρ}
    (h : Settled w norm r x pc) : x = some (w.toCsv r) := by
  cases pc with
  | start => exact h
  | reading => exact h
  | done res => exact h.2
  | unlinking => exact h.elim
  | pending k => exact h.elim
  | computing => exact h.elim
  | writing r k => exact h.elim
  | cleanup r => exact h.elim

theorem sysRun_settled (w : World ρ γ) (hw : HexDigest w) (cfg : ι → TrialConfig) (seed : Int)
    (hinj : ∀ i j, resultsPath (cfg i) = resultsPath (cfg j) → i = j)
    (i : ι) (r : ρ) (norm : ρ → ρ) (hread : w.readCsv (w.toCsv r) = .ok (norm r))
    (evs : List (Event γ ι)) : ∀ (s : Sys ρ γ ι),
      Settled w norm r (s.fs (resultsPath (cfg i))) (s.pc i) →
      Settled w norm r ((sysRun w cfg seed s evs).fs (resultsPath (cfg i)))
        ((sysRun w cfg seed s evs).pc i) := by
  induction evs with
  | nil => intro s h; exact h
  | cons ev evs ih =>
    intro s h
    refine ih _ ?_
    cases ev with
    | step j =>
      by_cases hj : i = j
      · subst hj
        simp only [sysStep, if_true]
        generalize s.pc i = pc at h ⊢
        cases pc with
        | start =>
          have h' : s.fs (resultsPath (cfg i)) = some (w.toCsv r) := h
          simp only [trialStep, h', Option.isSome_some, if_true]
          exact rfl
        | reading =>
          have h' : s.fs (resultsPath (cfg i)) = some (w.toCsv r) := h
          simp only [trialStep, h', hread]
          exact ⟨Or.inr rfl, rfl⟩
        | done res => exact h
        | unlinking => exact h.elim
        | pending k => exact h.elim
        | computing => exact h.elim
        | writing r k => exact h.elim
        | cleanup r => exact h.elim
      · have hf := trialStep_frame w (cfg j) seed s.fs (s.pc j) (s.gen j) (resultsPath (cfg i))
          (fun e => hj (hinj _ _ e)) (path_ne_pending w hw _ _)
        simp only [sysStep, if_neg hj]
        rw [hf]
        exact h
    | restart j g =>
      by_cases hj : i = j
      · subst hj
        simp only [sysStep, if_true]
        exact h.file
      · simp only [sysStep, if_neg hj]
        exact h

end system

/-- An evaluation starting from a recoverable file. -/
theorem evaluate_recoverableP (w : World ρ γ) (hw : HexDigest w) (c : TrialConfig) (seed : Int)
    (P : Except PyErr ρ → Prop) (fs : Files) (g : γ) (hP : P (w.outcome c seed g).1)
    (norm : ρ → ρ) (hread : ∀ r, P (.ok r) → w.readCsv (w.toCsv r) = .ok (norm r))
    (h : RecoverableP w P (fs (resultsPath c))) :
    (match (evaluate w c seed fs g).1 with
      | .error e => P (.error e)
      | .ok r' => ∃ r, P (.ok r) ∧
          (evaluate w c seed fs g).2.1 (resultsPath c) = some (w.toCsv r) ∧ (r' = r ∨ r' = norm r) ∧
          (r' = r ∨ fs (resultsPath c) = some (w.toCsv r))) ∧
      (∀ p, p ≠ resultsPath c → p ≠ pendingPath w c → (evaluate w c seed fs g).2.1 p = fs p) := by
  have hne := path_ne_pending w hw c c
  have hcomp : ∀ fs', (match (computeTrial w c seed fs' g).1 with
        | .error e => P (.error e)
        | .ok r => P (.ok r) ∧
          (computeTrial w c seed fs' g).2.1 (resultsPath c) = some (w.toCsv r)) ∧
      (∀ p, p ≠ resultsPath c → p ≠ pendingPath w c →
        (computeTrial w c seed fs' g).2.1 p = fs' p) := by
    intro fs'
    rcases ho : w.outcome c seed g with ⟨e | r, g'⟩
    · rw [ho] at hP
      simp only [computeTrial, ho]
      exact ⟨hP, fun p _ hp => setFile_other _ _ hp⟩
    · rw [ho] at hP
      simp only [computeTrial, ho]
      refine ⟨⟨hP, ?_⟩, ?_⟩
      · rw [setFile_other _ _ hne, setFile_same]
      · intro p hp1 hp2
        rw [setFile_other _ _ hp2, setFile_other _ _ hp1, setFile_other _ _ hp2]
  rcases hf : fs (resultsPath c) with _ | txt
  · simp only [evaluate, hf]
    obtain ⟨h1, h2⟩ := hcomp fs
    refine ⟨?_, h2⟩
    split
    · rename_i e he
      rw [he] at h1
      exact h1
    · rename_i r hr
      rw [hr] at h1
      exact ⟨r, h1.1, h1.2, Or.inl rfl, Or.inl rfl⟩
  · rw [hf] at h
    rcases hrd : w.readCsv txt with e | t
    · simp only [evaluate, hf, hrd]
      obtain ⟨h1, h3⟩ := hcomp (setFile fs (resultsPath c) none)
      refine ⟨?_, fun p hp1 hp2 => by rw [h3 p hp1 hp2, setFile_other _ _ hp1]⟩
      split
      · rename_i e' he
        rw [he] at h1
        exact h1
      · rename_i r hr
        rw [hr] at h1
        exact ⟨r, h1.1, h1.2, Or.inl rfl, Or.inl rfl⟩
    · simp only [evaluate, hf, hrd]
      rcases h with ⟨e, he⟩ | ⟨r, hr1, hr2⟩
      · rw [hrd] at he; cases he
      · have ht : t = norm r := by
          rw [hr2, hread r hr1] at hrd
          exact (Except.ok.inj hrd).symm
        exact ⟨⟨r, hr1, by rw [hr2], Or.inr ht, Or.inr (by rw [hr2])⟩, fun _ _ _ => trivial⟩

end Verif
