import Verif.Model.Trial
import Mathlib.Tactic.Ring
import Mathlib.Tactic.Linarith

/-!
# Lemmas about trial evaluations
-/

namespace Verif

variable {ρ γ : Type}

theorem setFile_same (fs : Files) (p : String) (x : Option Text) : setFile fs p x p = x := by
  simp [setFile]

theorem setFile_other (fs : Files) {p q : String} (x : Option Text) (h : q ≠ p) :
    setFile fs p x q = fs q := by
  simp [setFile, h]

theorem torn_full (w : World ρ γ) (txt : Text) (k : Nat)
    (h : ¬ k * (w.buffer + 1) < txt.length) : torn w txt k = txt := by
  unfold torn
  exact List.take_of_length_le (by omega)

/-- The digest is not empty and consists of hexadecimal digits. -/
def HexDigest (w : World ρ γ) : Prop :=
  ∀ s, w.md5 s ≠ "" ∧ ∀ ch ∈ (w.md5 s).toList, ch ∈ "0123456789abcdef".toList

theorem path_ne_pending (w : World ρ γ) (hw : HexDigest w) (c d : TrialConfig) :
    resultsPath c ≠ pendingPath w d := by
  intro h
  obtain ⟨h1, h2⟩ := hw (resultsPath d)
  have h3 := congrArg String.toList h
  unfold pendingPath at h3
  generalize w.md5 (resultsPath d) = m at h1 h2 h3
  simp only [resultsPath, String.toList_append] at h3
  have h4 : m.toList ≠ [] := by
    intro h5
    apply h1
    apply String.toList_injective
    simpa using h5
  have h5 := congrArg List.getLast? h3
  rw [List.getLast?_append_of_ne_nil _ h4] at h5
  rw [List.getLast?_append_of_ne_nil _ (by decide)] at h5
  have h6 : (".csv".toList).getLast? = some 'v' := by decide
  rw [h6] at h5
  have h7 := List.mem_of_getLast? h5.symm
  have h8 := h2 _ h7
  exact absurd h8 (by decide)

/-! ## One undisturbed evaluation -/

theorem iterate_pending (w : World ρ γ) (c : TrialConfig) (seed : Int) (fs : Files) (g : γ) :
    ∀ m k, (w.pendingText c).length - k * (w.buffer + 1) ≤ m →
      ∃ n, (trialStep w c seed)^[n] (fs, .pending k, g) =
        (setFile fs (pendingPath w c) (some (w.pendingText c)), .computing, g) := by
  have key : ∀ m k (fs' : Files), (w.pendingText c).length - k * (w.buffer + 1) ≤ m →
      (∀ p, p ≠ pendingPath w c → fs' p = fs p) →
      ∃ n, (trialStep w c seed)^[n] (fs', .pending k, g) =
        (setFile fs (pendingPath w c) (some (w.pendingText c)), .computing, g) := by
    intro m
    induction m with
    | zero =>
      intro k fs' hm hfs
      refine ⟨1, ?_⟩
      have hk : ¬ k * (w.buffer + 1) < (w.pendingText c).length := by omega
      simp only [Function.iterate_one, trialStep, if_neg hk, torn_full w _ k hk]
      congr 1
      funext p
      by_cases hp : p = pendingPath w c
      · simp [setFile, hp]
      · simp [setFile, hp, hfs p hp]
    | succ m ih =>
      intro k fs' hm hfs
      by_cases hk : k * (w.buffer + 1) < (w.pendingText c).length
      · have hlt : (w.pendingText c).length - (k + 1) * (w.buffer + 1) ≤ m := by
          have : (k + 1) * (w.buffer + 1) = k * (w.buffer + 1) + (w.buffer + 1) := by ring
          omega
        obtain ⟨n, hn⟩ := ih (k + 1)
          (setFile fs' (pendingPath w c) (some (torn w (w.pendingText c) k))) hlt (by
            intro p hp
            rw [setFile_other _ _ hp]
            exact hfs p hp)
        refine ⟨n + 1, ?_⟩
        rw [Function.iterate_succ_apply]
        simp only [trialStep, if_pos hk]
        exact hn
      · refine ⟨1, ?_⟩
        simp only [Function.iterate_one, trialStep, if_neg hk, torn_full w _ k hk]
        congr 1
        funext p
        by_cases hp : p = pendingPath w c
        · simp [setFile, hp]
        · simp [setFile, hp, hfs p hp]
  intro m k hm
  exact key m k fs hm (fun _ _ => rfl)

theorem iterate_writing (w : World ρ γ) (c : TrialConfig) (seed : Int) (fs : Files) (g : γ) (r : ρ) :
    ∀ m k (fs' : Files), (w.toCsv r).length - k * (w.buffer + 1) ≤ m →
      (∀ p, p ≠ resultsPath c → fs' p = fs p) →
      ∃ n, (trialStep w c seed)^[n] (fs', .writing r k, g) =
        (setFile fs (resultsPath c) (some (w.toCsv r)), .cleanup r, g) := by
  intro m
  induction m with
  | zero =>
    intro k fs' hm hfs
    refine ⟨1, ?_⟩
    have hk : ¬ k * (w.buffer + 1) < (w.toCsv r).length := by omega
    simp only [Function.iterate_one, trialStep, if_neg hk, torn_full w _ k hk]
    congr 1
    funext p
    by_cases hp : p = resultsPath c
    · simp [setFile, hp]
    · simp [setFile, hp, hfs p hp]
  | succ m ih =>
    intro k fs' hm hfs
    by_cases hk : k * (w.buffer + 1) < (w.toCsv r).length
    · have hlt : (w.toCsv r).length - (k + 1) * (w.buffer + 1) ≤ m := by
        have : (k + 1) * (w.buffer + 1) = k * (w.buffer + 1) + (w.buffer + 1) := by ring
        omega
      obtain ⟨n, hn⟩ := ih (k + 1)
        (setFile fs' (resultsPath c) (some (torn w (w.toCsv r) k))) hlt (by
          intro p hp
          rw [setFile_other _ _ hp]
          exact hfs p hp)
      refine ⟨n + 1, ?_⟩
      rw [Function.iterate_succ_apply]
      simp only [trialStep, if_pos hk]
      exact hn
    · refine ⟨1, ?_⟩
      simp only [Function.iterate_one, trialStep, if_neg hk, torn_full w _ k hk]
      congr 1
      funext p
      by_cases hp : p = resultsPath c
      · simp [setFile, hp]
      · simp [setFile, hp, hfs p hp]

theorem iterate_trans {α : Type} (f : α → α) {a b d : α} (h1 : ∃ n, f^[n] a = b)
    (h2 : ∃ n, f^[n] b = d) : ∃ n, f^[n] a = d := by
  obtain ⟨n, hn⟩ := h1
  obtain ⟨m, hm⟩ := h2
  exact ⟨m + n, by rw [Function.iterate_add_apply, hn, hm]⟩

theorem iterate_one' {α : Type} (f : α → α) (a : α) : ∃ n, f^[n] a = f a := ⟨1, rfl⟩

/-- From the first piece of the pending file on, the small steps compute `computeTrial`. -/
theorem steps_compute (w : World ρ γ) (c : TrialConfig) (seed : Int) (fs : Files) (g : γ) :
    ∃ n, (trialStep w c seed)^[n] (fs, .pending 0, g) =
      ((computeTrial w c seed fs g).2.1, .done (computeTrial w c seed fs g).1,
        (computeTrial w c seed fs g).2.2) := by
  refine iterate_trans _ (iterate_pending w c seed fs g _ 0 le_rfl) ?_
  refine iterate_trans _ (iterate_one' _ _) ?_
  rcases ho : w.outcome c seed g with ⟨e | r, g'⟩
  · exact ⟨0, by simp [trialStep, computeTrial, ho]⟩
  · simp only [trialStep, ho]
    refine iterate_trans _ (iterate_writing w c seed
      (setFile fs (pendingPath w c) (some (w.pendingText c))) g' r _ 0 _ le_rfl
      (fun _ _ => rfl)) ?_
    exact ⟨1, by simp [trialStep, computeTrial, ho]⟩

/-- The small steps compute `evaluate`. -/
theorem steps_evaluate (w : World ρ γ) (c : TrialConfig) (seed : Int) (fs : Files) (g : γ) :
    ∃ n, (trialStep w c seed)^[n] (fs, .start, g) =
      ((evaluate w c seed fs g).2.1, .done (evaluate w c seed fs g).1,
        (evaluate w c seed fs g).2.2) := by
  refine iterate_trans _ (iterate_one' _ _) ?_
  rcases hf : fs (resultsPath c) with _ | txt
  · simp only [trialStep, hf, evaluate, Option.isSome_none, Bool.false_eq_true, if_false]
    exact steps_compute w c seed fs g
  · simp only [trialStep, hf, evaluate, Option.isSome_some, if_true]
    refine iterate_trans _ (iterate_one' _ _) ?_
    rcases hr : w.readCsv txt with e | t
    · simp only [trialStep, hf, hr]
      refine iterate_trans _ (iterate_one' _ _) ?_
      simp only [trialStep, hf]
      exact steps_compute w c seed _ g
    · exact ⟨0, by simp [trialStep, hf, hr]⟩

/-! ## Many evaluations with crashes -/

/-- A file content from which the evaluation of a trial with outcome `out` recovers. -/
def Recoverable (w : World ρ γ) (out : Except PyErr ρ) : Option Text → Prop
  | none => True
  | some txt => (∃ e, w.readCsv txt = .error e) ∨ ∃ r, out = .ok r ∧ txt = w.toCsv r

/-- An answer the evaluation of a trial with outcome `out` may give. -/
def Answer (w : World ρ γ) (out : Except PyErr ρ) (res : Except PyErr ρ) : Prop :=
  res = out ∨ ∃ r, out = .ok r ∧ res = w.readCsv (w.toCsv r)

/-- No piecewise written part of a text can be read. -/
def TornUnreadable (w : World ρ γ) (txt : Text) : Prop :=
  ∀ k, k * (w.buffer + 1) < txt.length → ∃ e, w.readCsv (torn w txt k) = .error e

/-- Invariant of one evaluation: generator states in `G` at its start. -/
def TaskInv (w : World ρ γ) (G : γ → Prop) (out : Except PyErr ρ) (x : Option Text) (g : γ) :
    Pc ρ → Prop
  | .start => G g ∧ Recoverable w out x
  | .reading => G g ∧ Recoverable w out x ∧ x.isSome
  | .unlinking => G g ∧ Recoverable w out x ∧ x.isSome
  | .pending _ => G g ∧ Recoverable w out x
  | .computing => G g ∧ Recoverable w out x
  | .writing r _ => out = .ok r ∧ Recoverable w out x
  | .cleanup r => out = .ok r ∧ x = some (w.toCsv r)
  | .done res => Answer w out res ∧ Recoverable w out x ∧
      (∀ r, out = .ok r → x = some (w.toCsv r))

theorem TaskInv.recoverable {w : World ρ γ} {G : γ → Prop} {out : Except PyErr ρ}
    {x : Option Text} {g : γ} {pc : Pc ρ} (h : TaskInv w G out x g pc) : Recoverable w out x := by
  cases pc with
  | start => exact h.2
  | reading => exact h.2.1
  | unlinking => exact h.2.1
  | pending k => exact h.2
  | computing => exact h.2
  | writing r k => exact h.2
  | cleanup r =>
    obtain ⟨h1, h2⟩ := h
    rw [h2]
    exact Or.inr ⟨r, h1, rfl⟩
  | done res => exact h.2.1

theorem trialStep_inv (w : World ρ γ) (hw : HexDigest w) (c : TrialConfig) (seed : Int)
    (G : γ → Prop) (out : Except PyErr ρ) (hout : ∀ g, G g → (w.outcome c seed g).1 = out)
    (htorn : ∀ r, out = .ok r → TornUnreadable w (w.toCsv r))
    (fs : Files) (pc : Pc ρ) (g : γ) (h : TaskInv w G out (fs (resultsPath c)) g pc) :
    let s := trialStep w c seed (fs, pc, g)
    TaskInv w G out (s.1 (resultsPath c)) s.2.2 s.2.1 := by
  have hne := path_ne_pending w hw c c
  cases pc with
  | start =>
    simp only [trialStep]
    by_cases hs : (fs (resultsPath c)).isSome
    · rw [if_pos hs]; exact ⟨h.1, h.2, hs⟩
    · rw [if_neg hs]; exact h
  | reading =>
    obtain ⟨h1, h2, h3⟩ := h
    rcases hf : fs (resultsPath c) with _ | txt
    · rw [hf] at h3; cases h3
    · rcases hr : w.readCsv txt with e | t
      · simp only [trialStep, hf, hr]
        exact ⟨h1, hf ▸ h2, rfl⟩
      · simp only [trialStep, hf, hr]
        rw [hf] at h2
        refine ⟨?_, h2, ?_⟩
        · rcases h2 with ⟨e, he⟩ | ⟨r, hr1, hr2⟩
          · rw [hr] at he; cases he
          · exact Or.inr ⟨r, hr1, by rw [← hr2, hr]⟩
        · intro r hr1
          rcases h2 with ⟨e, he⟩ | ⟨r', hr1', hr2⟩
          · rw [hr] at he; cases he
          · rw [hr1] at hr1'
            cases hr1'
            rw [hr2]
  | unlinking =>
    obtain ⟨h1, h2, h3⟩ := h
    rcases hf : fs (resultsPath c) with _ | txt
    · rw [hf] at h3; cases h3
    · simp only [trialStep, hf]
      rw [setFile_same]
      exact ⟨h1, trivial⟩
  | pending k =>
    simp only [trialStep]
    rw [setFile_other _ _ hne]
    split <;> exact h
  | computing =>
    obtain ⟨h1, h2⟩ := h
    have h3 := hout g h1
    rcases ho : w.outcome c seed g with ⟨e | r, g'⟩
    · simp only [trialStep, ho]
      rw [ho] at h3
      refine ⟨Or.inl h3, h2, ?_⟩
      intro r hr
      rw [hr] at h3; cases h3
    · simp only [trialStep, ho]
      rw [ho] at h3
      exact ⟨h3.symm, h2⟩
  | writing r k =>
    obtain ⟨h1, h2⟩ := h
    simp only [trialStep]
    rw [setFile_same]
    by_cases hk : k * (w.buffer + 1) < (w.toCsv r).length
    · rw [if_pos hk]
      exact ⟨h1, Or.inl (htorn r h1 k hk)⟩
    · rw [if_neg hk, torn_full w _ k hk]
      exact ⟨h1, rfl⟩
  | cleanup r =>
    obtain ⟨h1, h2⟩ := h
    simp only [trialStep]
    rw [setFile_other _ _ hne, h2]
    refine ⟨Or.inl h1.symm, Or.inr ⟨r, h1, rfl⟩, ?_⟩
    intro r' hr'
    rw [h1] at hr'
    cases hr'
    rfl
  | done res => exact h

/-- A step touches only the files of its own trial. -/
theorem trialStep_frame (w : World ρ γ) (c : TrialConfig) (seed : Int) (fs : Files) (pc : Pc ρ)
    (g : γ) (p : String) (h1 : p ≠ resultsPath c) (h2 : p ≠ pendingPath w c) :
    (trialStep w c seed (fs, pc, g)).1 p = fs p := by
  cases pc with
  | start => simp only [trialStep]; split <;> rfl
  | reading => simp only [trialStep]; split <;> [rfl; (split <;> rfl)]
  | unlinking => simp only [trialStep]; split <;> [rfl; exact setFile_other _ _ h1]
  | pending k => exact setFile_other _ _ h2
  | computing => simp only [trialStep]; split <;> rfl
  | writing r k => exact setFile_other _ _ h1
  | cleanup r => exact setFile_other _ _ h2
  | done res => rfl

section system
variable {ι : Type} [DecidableEq ι]

/-- Invariant of the system. -/
def SysInv (w : World ρ γ) (cfg : ι → TrialConfig) (G : ι → γ → Prop) (out : ι → Except PyErr ρ)
    (s : Sys ρ γ ι) : Prop :=
  ∀ i, TaskInv w (G i) (out i) (s.fs (resultsPath (cfg i))) (s.gen i) (s.pc i)

/-- Restarts begin with an allowed generator state. -/
def Event.Allowed (G : ι → γ → Prop) : Event γ ι → Prop
  | .step _ => True
  | .restart i g => G i g

theorem sysStep_inv (w : World ρ γ) (hw : HexDigest w) (cfg : ι → TrialConfig) (seed : Int)
    (hinj : ∀ i j, resultsPath (cfg i) = resultsPath (cfg j) → i = j)
    (G : ι → γ → Prop) (out : ι → Except PyErr ρ)
    (hout : ∀ i g, G i g → (w.outcome (cfg i) seed g).1 = out i)
    (htorn : ∀ i r, out i = .ok r → TornUnreadable w (w.toCsv r))
    (s : Sys ρ γ ι) (h : SysInv w cfg G out s) (ev : Event γ ι) (hev : ev.Allowed G) :
    SysInv w cfg G out (sysStep w cfg seed s ev) := by
  cases ev with
  | step i =>
    intro j
    by_cases hj : j = i
    · subst hj
      have := trialStep_inv w hw (cfg j) seed (G j) (out j) (hout j) (htorn j) s.fs (s.pc j)
        (s.gen j) (h j)
      simpa [sysStep] using this
    · have hf := trialStep_frame w (cfg i) seed s.fs (s.pc i) (s.gen i) (resultsPath (cfg j))
        (fun e => hj (hinj _ _ e)) (path_ne_pending w hw _ _)
      have := h j
      simp only [sysStep, if_neg hj]
      rw [hf]
      exact this
  | restart i g =>
    intro j
    by_cases hj : j = i
    · subst hj
      simp only [sysStep, if_true]
      exact ⟨hev, (h j).recoverable⟩
    · simp only [sysStep, if_neg hj]
      exact h j

theorem sysRun_inv (w : World ρ γ) (hw : HexDigest w) (cfg : ι → TrialConfig) (seed : Int)
    (hinj : ∀ i j, resultsPath (cfg i) = resultsPath (cfg j) → i = j)
    (G : ι → γ → Prop) (out : ι → Except PyErr ρ)
    (hout : ∀ i g, G i g → (w.outcome (cfg i) seed g).1 = out i)
    (htorn : ∀ i r, out i = .ok r → TornUnreadable w (w.toCsv r))
    (evs : List (Event γ ι)) : ∀ (s : Sys ρ γ ι), SysInv w cfg G out s →
      (∀ ev ∈ evs, ev.Allowed G) → SysInv w cfg G out (sysRun w cfg seed s evs) := by
  induction evs with
  | nil => intro s h _; exact h
  | cons ev evs ih =>
    intro s h hev
    exact ih _ (sysStep_inv w hw cfg seed hinj G out hout htorn s h ev (hev ev (by simp)))
      (fun e he => hev e (by simp [he]))

end system

/-- An evaluation starting from a recoverable file. -/
theorem evaluate_recoverable (w : World ρ γ) (hw : HexDigest w) (c : TrialConfig) (seed : Int)
    (out : Except PyErr ρ) (fs : Files) (g : γ) (hout : (w.outcome c seed g).1 = out)
    (h : Recoverable w out (fs (resultsPath c))) :
    Answer w out (evaluate w c seed fs g).1 ∧
      (∀ r, out = .ok r → (evaluate w c seed fs g).2.1 (resultsPath c) = some (w.toCsv r)) ∧
      (∀ p, p ≠ resultsPath c → p ≠ pendingPath w c → (evaluate w c seed fs g).2.1 p = fs p) := by
  have hne := path_ne_pending w hw c c
  have hcomp : ∀ fs', Answer w out (computeTrial w c seed fs' g).1 ∧
      (∀ r, out = .ok r → (computeTrial w c seed fs' g).2.1 (resultsPath c) = some (w.toCsv r)) ∧
      (∀ p, p ≠ resultsPath c → p ≠ pendingPath w c →
        (computeTrial w c seed fs' g).2.1 p = fs' p) := by
    intro fs'
    rcases ho : w.outcome c seed g with ⟨e | r, g'⟩
    · rw [ho] at hout
      simp only [computeTrial, ho]
      refine ⟨Or.inl hout, ?_, fun p _ hp => setFile_other _ _ hp⟩
      intro r hr'
      rw [hr'] at hout; cases hout
    · rw [ho] at hout
      simp only [computeTrial, ho]
      refine ⟨Or.inl hout, ?_, ?_⟩
      · intro r' hr'
        rw [hr'] at hout
        cases hout
        rw [setFile_other _ _ hne, setFile_same]
      · intro p hp1 hp2
        rw [setFile_other _ _ hp2, setFile_other _ _ hp1, setFile_other _ _ hp2]
  rcases hf : fs (resultsPath c) with _ | txt
  · simp only [evaluate, hf]; exact hcomp fs
  · rw [hf] at h
    rcases hrd : w.readCsv txt with e | t
    · simp only [evaluate, hf, hrd]
      obtain ⟨h1, h2, h3⟩ := hcomp (setFile fs (resultsPath c) none)
      exact ⟨h1, h2, fun p hp1 hp2 => by rw [h3 p hp1 hp2, setFile_other _ _ hp1]⟩
    · simp only [evaluate, hf, hrd]
      rcases h with ⟨e, he⟩ | ⟨r, hr1, hr2⟩
      · rw [hrd] at he; cases he
      · refine ⟨Or.inr ⟨r, hr1, by rw [← hr2, hrd]⟩, ?_, fun _ _ _ => trivial⟩
        intro r' hr'
        rw [hr1] at hr'
        cases hr'
        rw [hr2]

end Verif
