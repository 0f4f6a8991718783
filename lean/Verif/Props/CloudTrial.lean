import Verif.Model.CloudTrial
import Verif.Props.Trial
import Verif.Props.Beam

/-!
# Results about trials on cloud storage (C48, C83)
-/

namespace Verif

variable {ρ γ : Type}

/-! ## One evaluation -/

/-- **C48 (cloud, the two descriptions agree).** At most seven steps of one evaluation on cloud
storage, taken without interference, lead to the result, files and generators of `evaluate`. -/
theorem C48_cloud_steps (w : World ρ γ) (c : TrialConfig) (seed : Int) (fs : Files) (g : γ) :
    ∃ n ≤ 7, (cloudTrialStep w c seed)^[n] (fs, .start, g) =
      ((evaluate w c seed fs g).2.1, .done (evaluate w c seed fs g).1,
        (evaluate w c seed fs g).2.2) := by
  have compute : ∀ fs : Files, ∃ n ≤ 4, (cloudTrialStep w c seed)^[n] (fs, .pending 0, g) =
      ((computeTrial w c seed fs g).2.1, .done (computeTrial w c seed fs g).1,
        (computeTrial w c seed fs g).2.2) := by
    intro fs
    rcases ho : w.outcome c seed g with ⟨e | r, g'⟩
    · exact ⟨2, by omega, by simp only [Function.iterate_succ, Function.iterate_zero, Function.comp,
        cloudTrialStep, ho, computeTrial, id]⟩
    · exact ⟨4, le_rfl, by simp only [Function.iterate_succ, Function.iterate_zero, Function.comp,
        cloudTrialStep, ho, computeTrial, id]⟩
  rcases hf : fs (resultsPath c) with _ | txt
  · obtain ⟨n, hn, h⟩ := compute fs
    refine ⟨n + 1, by omega, ?_⟩
    rw [Function.iterate_succ, Function.comp]
    simp only [cloudTrialStep, hf, Option.isSome_none, Bool.false_eq_true, if_false, evaluate, h]
  · rcases hr : w.readCsv txt with e | t
    · obtain ⟨n, hn, h⟩ := compute (setFile fs (resultsPath c) none)
      refine ⟨n + 3, by omega, ?_⟩
      rw [Function.iterate_add, Function.comp]
      have : (cloudTrialStep w c seed)^[3] (fs, .start, g) =
          (setFile fs (resultsPath c) none, .pending 0, g) := by
        simp only [Function.iterate_succ, Function.iterate_zero, Function.comp,
          cloudTrialStep, hf, hr, Option.isSome_some, if_true, id]
      rw [this, h]
      simp only [evaluate, hf, hr]
    · refine ⟨2, by omega, ?_⟩
      simp only [Function.iterate_succ, Function.iterate_zero, Function.comp,
        cloudTrialStep, hf, hr, Option.isSome_some, if_true, id, evaluate]

example : ((cloudTrialStep (exWorld 0 true false) exTrial 7)^[5] (fun _ => none, .start, 5)).1
      "d/e/ds/t.csv" = some "seed,type,gen\n7,,5\n".toList ∧
    ((cloudTrialStep (exWorld 0 true false) exTrial 7)^[5] (fun _ => none, .start, 5)).2.2 = 6 := by
  decide +kernel

/-! ## Many evaluations -/

/-- The object of a trial is missing or complete. -/
def CloudComplete (w : World ρ γ) (out : Except PyErr ρ) (x : Option Text) : Prop :=
  x = none ∨ ∃ r, out = .ok r ∧ x = some (w.toCsv r)

/-- Invariant of one evaluation on cloud storage. -/
def CloudInv (w : World ρ γ) (G : γ → Prop) (out : Except PyErr ρ) (x : Option Text) (g : γ) :
    Pc ρ → Prop
  | .start => G g
  | .reading => G g ∧ x.isSome
  | .unlinking => False
  | .pending _ => G g
  | .computing => G g
  | .writing r _ => out = .ok r
  | .cleanup r => out = .ok r ∧ x = some (w.toCsv r)
  | .done res => res = out ∧ (∀ r, out = .ok r → x = some (w.toCsv r))

theorem CloudInv.mono {w : World ρ γ} {G : γ → Prop} {out : Except PyErr ρ} {x y : Option Text}
    {g : γ} {pc : Pc ρ} (hy : x = y ∨ ∃ r, out = .ok r ∧ y = some (w.toCsv r))
    (h : CloudInv w G out x g pc) : CloudInv w G out y g pc := by
  rcases hy with rfl | ⟨r, hr, rfl⟩
  · exact h
  · cases pc with
    | start => exact h
    | reading => exact ⟨h.1, rfl⟩
    | unlinking => exact h
    | pending k => exact h
    | computing => exact h
    | writing r k => exact h
    | cleanup r' =>
      obtain ⟨h1, _⟩ := h
      rw [hr] at h1
      cases h1
      exact ⟨hr, rfl⟩
    | done res =>
      refine ⟨h.1, fun r' hr' => ?_⟩
      rw [hr] at hr'
      cases hr'
      rfl

variable {ι : Type} [DecidableEq ι]

/-- Invariant of all evaluations on cloud storage. -/
def CloudSysInv (w : World ρ γ) (cfg : ι → TrialConfig) (G : ι → γ → Prop)
    (out : ι → Except PyErr ρ) (s : Sys ρ γ ι) : Prop :=
  ∀ i, CloudComplete w (out i) (s.fs (resultsPath (cfg i))) ∧
    CloudInv w (G i) (out i) (s.fs (resultsPath (cfg i))) (s.gen i) (s.pc i)

theorem cloudTrialStep_inv (w : World ρ γ) (hw : HexDigest w) (c : TrialConfig) (seed : Int)
    (G : γ → Prop) (out : Except PyErr ρ) (hout : ∀ g, G g → (w.outcome c seed g).1 = out)
    (hread : ∀ r, out = .ok r → w.readCsv (w.toCsv r) = .ok r) (fs : Files) (pc : Pc ρ) (g : γ)
    (hc : CloudComplete w out (fs (resultsPath c)))
    (hi : CloudInv w G out (fs (resultsPath c)) g pc) :
    let q := cloudTrialStep w c seed (fs, pc, g)
    (∀ p, (∀ d, p ≠ pendingPath w d) → q.1 p = fs p ∨
      (p = resultsPath c ∧ ∃ r, out = .ok r ∧ q.1 p = some (w.toCsv r))) ∧
    CloudInv w G out (q.1 (resultsPath c)) q.2.2 q.2.1 := by
  intro q
  have hne := path_ne_pending w hw c c
  have same : ∀ x, setFile fs (pendingPath w c) x (resultsPath c) = fs (resultsPath c) := by
    intro x
    simp [setFile, hne]
  have pend : ∀ x p, (∀ d, p ≠ pendingPath w d) → setFile fs (pendingPath w c) x p = fs p := by
    intro x p hp
    simp [setFile, hp c]
  cases pc with
  | start =>
    simp only [q, cloudTrialStep]
    split
    · rename_i h
      exact ⟨fun p _ => Or.inl rfl, hi, h⟩
    · exact ⟨fun p _ => Or.inl rfl, hi⟩
  | reading =>
    obtain ⟨hg, hs⟩ := hi
    rcases hc with h0 | ⟨r, hr, h1⟩
    · rw [h0] at hs; cases hs
    · simp only [q, cloudTrialStep, h1, hread r hr]
      refine ⟨fun p _ => Or.inl trivial, hr.symm, ?_⟩
      intro r' hr'
      rw [hr] at hr'
      cases hr'
      rfl
  | unlinking => exact hi.elim
  | pending k =>
    simp only [q, cloudTrialStep]
    exact ⟨fun p hp => Or.inl (pend _ p hp), hi⟩
  | computing =>
    have ho := hout g hi
    rcases hq : w.outcome c seed g with ⟨e | r, g'⟩
    · rw [hq] at ho
      simp only [q, cloudTrialStep, hq]
      refine ⟨fun p _ => Or.inl trivial, ho, ?_⟩
      intro r hr
      rw [← ho] at hr
      cases hr
    · rw [hq] at ho
      simp only [q, cloudTrialStep, hq]
      exact ⟨fun p _ => Or.inl trivial, ho.symm⟩
  | writing r k =>
    simp only [q, cloudTrialStep]
    refine ⟨?_, hi, by simp [setFile]⟩
    intro p _
    by_cases hp : p = resultsPath c
    · exact Or.inr ⟨hp, r, hi, by simp [setFile, hp]⟩
    · exact Or.inl (by simp [setFile, hp])
  | cleanup r =>
    simp only [q, cloudTrialStep]
    refine ⟨fun p hp => Or.inl (pend _ p hp), hi.1.symm, ?_⟩
    intro r' hr'
    rw [same]
    rw [hi.1] at hr'
    cases hr'
    exact hi.2
  | done res => exact ⟨fun p _ => Or.inl rfl, hi⟩

theorem cloudSysStep_inv (w : World ρ γ) (hw : HexDigest w) (cfg : ι → TrialConfig) (seed : Int)
    (G : ι → γ → Prop) (out : ι → Except PyErr ρ)
    (hsame : ∀ i j, resultsPath (cfg i) = resultsPath (cfg j) → out i = out j)
    (hout : ∀ i g, G i g → (w.outcome (cfg i) seed g).1 = out i)
    (hread : ∀ i r, out i = .ok r → w.readCsv (w.toCsv r) = .ok r)
    (s : Sys ρ γ ι) (h : CloudSysInv w cfg G out s) (ev : Event γ ι) (hev : ev.Allowed G) :
    CloudSysInv w cfg G out (cloudSysStep w cfg seed s ev) := by
  cases ev with
  | step i =>
    obtain ⟨h1, h2⟩ := cloudTrialStep_inv w hw (cfg i) seed (G i) (out i) (hout i) (hread i) s.fs
      (s.pc i) (s.gen i) (h i).1 (h i).2
    intro j
    have hj := h1 (resultsPath (cfg j)) (fun d => path_ne_pending w hw (cfg j) d)
    have hj' : s.fs (resultsPath (cfg j)) =
          (cloudTrialStep w (cfg i) seed (s.fs, s.pc i, s.gen i)).1 (resultsPath (cfg j)) ∨
        ∃ r, out j = .ok r ∧ (cloudTrialStep w (cfg i) seed (s.fs, s.pc i, s.gen i)).1
          (resultsPath (cfg j)) = some (w.toCsv r) := by
      rcases hj with hj | ⟨hp, r, hr, hj⟩
      · exact Or.inl hj.symm
      · exact Or.inr ⟨r, (hsame _ _ hp).trans hr, hj⟩
    refine ⟨?_, ?_⟩
    · simp only [cloudSysStep]
      rcases hj' with e | ⟨r, hr, e⟩
      · rw [← e]; exact (h j).1
      · exact Or.inr ⟨r, hr, e⟩
    · simp only [cloudSysStep]
      by_cases hij : j = i
      · subst hij
        simp only [if_true]
        exact h2
      · simp only [hij, if_false]
        exact (h j).2.mono hj'
  | restart i g =>
    intro j
    refine ⟨(h j).1, ?_⟩
    simp only [cloudSysStep]
    by_cases hij : j = i
    · subst hij
      simp only [if_true]
      exact hev
    · simp only [hij, if_false]
      exact (h j).2

theorem cloudSysRun_inv (w : World ρ γ) (hw : HexDigest w) (cfg : ι → TrialConfig) (seed : Int)
    (G : ι → γ → Prop) (out : ι → Except PyErr ρ)
    (hsame : ∀ i j, resultsPath (cfg i) = resultsPath (cfg j) → out i = out j)
    (hout : ∀ i g, G i g → (w.outcome (cfg i) seed g).1 = out i)
    (hread : ∀ i r, out i = .ok r → w.readCsv (w.toCsv r) = .ok r)
    (evs : List (Event γ ι)) : ∀ (s : Sys ρ γ ι), CloudSysInv w cfg G out s →
    (∀ ev ∈ evs, ev.Allowed G) → CloudSysInv w cfg G out (cloudSysRun w cfg seed s evs) := by
  induction evs with
  | nil => intro s h _; exact h
  | cons ev evs ih =>
    intro s h hev
    exact ih _ (cloudSysStep_inv w hw cfg seed G out hsame hout hread s h ev (hev ev (by simp)))
      (fun e he => hev e (by simp [he]))

/-- **C48 (cloud storage).** Trials are evaluated on cloud storage by any number of processes, also
several at a time for the same trial, with any interleaving, crashes and restarts, starting from a
bucket in which every result is missing or complete.  If evaluations with the same result file have
the same outcome and a written result is read back unchanged, then every evaluation that ended gave
that outcome, no object ever holds part of a result, the object of a successful trial that ended is
complete, and evaluating a trial afterwards gives its outcome.  Nothing is assumed about partly
written results. -/
theorem C48_cloud_safe (w : World ρ γ) (hw : HexDigest w) (cfg : ι → TrialConfig) (seed : Int)
    (G : ι → γ → Prop) (out : ι → Except PyErr ρ)
    (hsame : ∀ i j, resultsPath (cfg i) = resultsPath (cfg j) → out i = out j)
    (hout : ∀ i g, G i g → (w.outcome (cfg i) seed g).1 = out i)
    (hread : ∀ i r, out i = .ok r → w.readCsv (w.toCsv r) = .ok r)
    (fs : Files) (hfs : ∀ i, fs (resultsPath (cfg i)) = none ∨
      ∃ r, out i = .ok r ∧ fs (resultsPath (cfg i)) = some (w.toCsv r))
    (g0 : ι → γ) (hg0 : ∀ i, G i (g0 i))
    (evs : List (Event γ ι)) (hev : ∀ i g, Event.restart i g ∈ evs → G i g) (i : ι) :
    let s := cloudSysRun w cfg seed ⟨fs, fun _ => .start, g0⟩ evs
    (∀ res, s.pc i = .done res → res = out i) ∧
    (s.fs (resultsPath (cfg i)) = none ∨
      ∃ r, out i = .ok r ∧ s.fs (resultsPath (cfg i)) = some (w.toCsv r)) ∧
    (∀ r, s.pc i = .done (.ok r) → s.fs (resultsPath (cfg i)) = some (w.toCsv r)) ∧
    (∀ g, G i g → (evaluate w (cfg i) seed s.fs g).1 = out i) := by
  intro s
  have hinv : CloudSysInv w cfg G out s := by
    refine cloudSysRun_inv w hw cfg seed G out hsame hout hread evs _ (fun j => ⟨hfs j, hg0 j⟩) ?_
    intro ev he
    cases ev with
    | step j => trivial
    | restart j g => exact hev j g he
  obtain ⟨h1, h2⟩ := hinv i
  refine ⟨?_, h1, ?_, ?_⟩
  · intro res hres
    rw [hres] at h2
    exact h2.1
  · intro r hres
    rw [hres] at h2
    exact h2.2 r h2.1.symm
  · intro g hg
    have ho := hout i g hg
    rcases h1 with h0 | ⟨r, hr, h0⟩
    · simp only [evaluate, h0, computeTrial]
      rcases hq : w.outcome (cfg i) seed g with ⟨e | r, g'⟩ <;> rw [hq] at ho <;> exact ho
    · simp only [evaluate, h0, hread i r hr]
      exact hr.symm

/-- Steps an evaluation on cloud storage still needs if it never has to remove a result. -/
def cloudLeft : Pc ρ → Nat
  | .start => 5
  | .reading => 1
  | .unlinking => 5
  | .pending _ => 4
  | .computing => 3
  | .writing _ _ => 2
  | .cleanup _ => 1
  | .done _ => 0

theorem cloudLeft_step (w : World ρ γ) (c : TrialConfig) (seed : Int)
    (G : γ → Prop) (out : Except PyErr ρ)
    (hread : ∀ r, out = .ok r → w.readCsv (w.toCsv r) = .ok r) (fs : Files) (pc : Pc ρ) (g : γ)
    (hc : CloudComplete w out (fs (resultsPath c)))
    (hi : CloudInv w G out (fs (resultsPath c)) g pc) :
    cloudLeft (cloudTrialStep w c seed (fs, pc, g)).2.1 ≤ cloudLeft pc - 1 := by
  cases pc with
  | start => simp only [cloudTrialStep]; split <;> simp [cloudLeft]
  | reading =>
    obtain ⟨hg, hs⟩ := hi
    rcases hc with h0 | ⟨r, hr, h1⟩
    · rw [h0] at hs; cases hs
    · simp only [cloudTrialStep, h1, hread r hr, cloudLeft]; omega
  | unlinking => exact hi.elim
  | pending k => simp [cloudTrialStep, cloudLeft]
  | computing =>
    rcases hq : w.outcome c seed g with ⟨e | r, g'⟩ <;> simp [cloudTrialStep, hq, cloudLeft]
  | writing r k => simp [cloudTrialStep, cloudLeft]
  | cleanup r => simp [cloudTrialStep, cloudLeft]
  | done res => simp [cloudTrialStep, cloudLeft]

/-- **C48 (cloud storage, progress).** Under the conditions of `C48_cloud_safe`, five steps of a process
that is not restarted are enough, whatever the other processes do in between: the evaluation has then
ended with the outcome of the trial. -/
theorem C48_cloud_progress (w : World ρ γ) (hw : HexDigest w) (cfg : ι → TrialConfig) (seed : Int)
    (G : ι → γ → Prop) (out : ι → Except PyErr ρ)
    (hsame : ∀ i j, resultsPath (cfg i) = resultsPath (cfg j) → out i = out j)
    (hout : ∀ i g, G i g → (w.outcome (cfg i) seed g).1 = out i)
    (hread : ∀ i r, out i = .ok r → w.readCsv (w.toCsv r) = .ok r)
    (fs : Files) (hfs : ∀ i, fs (resultsPath (cfg i)) = none ∨
      ∃ r, out i = .ok r ∧ fs (resultsPath (cfg i)) = some (w.toCsv r))
    (g0 : ι → γ) (hg0 : ∀ i, G i (g0 i))
    (evs : List (Event γ ι)) (hev : ∀ i g, Event.restart i g ∈ evs → G i g) (i : ι)
    (hno : ∀ g, Event.restart i g ∉ evs)
    (hsteps : 5 ≤ evs.countP (fun ev => match ev with | .step j => j = i | .restart _ _ => false)) :
    (cloudSysRun w cfg seed ⟨fs, fun _ => .start, g0⟩ evs).pc i = .done (out i) := by
  have gen : ∀ (evs : List (Event γ ι)) (s : Sys ρ γ ι), CloudSysInv w cfg G out s →
      (∀ ev ∈ evs, ev.Allowed G) → (∀ g, Event.restart i g ∉ evs) →
      cloudLeft ((cloudSysRun w cfg seed s evs).pc i) ≤ cloudLeft (s.pc i) -
        evs.countP (fun ev => match ev with | .step j => j = i | .restart _ _ => false) := by
    intro evs
    induction evs with
    | nil => intro s _ _ _; simp [cloudSysRun]
    | cons ev evs ih =>
      intro s hs ha hn
      have h1 := ih (cloudSysStep w cfg seed s ev)
        (cloudSysStep_inv w hw cfg seed G out hsame hout hread s hs ev (ha ev (by simp)))
        (fun e he => ha e (by simp [he])) (fun g hg => hn g (by simp [hg]))
      have e1 : cloudSysRun w cfg seed s (ev :: evs) =
        cloudSysRun w cfg seed (cloudSysStep w cfg seed s ev) evs := rfl
      rw [e1]
      refine h1.trans ?_
      cases ev with
      | step j =>
        by_cases hj : j = i
        · subst hj
          rw [List.countP_cons_of_pos (by simp)]
          have := cloudLeft_step w (cfg j) seed (G j) (out j) (hread j) s.fs (s.pc j) (s.gen j)
            (hs j).1 (hs j).2
          have e2 : (cloudSysStep w cfg seed s (.step j)).pc j =
              (cloudTrialStep w (cfg j) seed (s.fs, s.pc j, s.gen j)).2.1 := by
            simp only [cloudSysStep, if_true]
          rw [e2]
          exact (Nat.sub_le_sub_right this _).trans (by omega)
        · rw [List.countP_cons_of_neg (by simp [hj])]
          have : i ≠ j := fun h => hj h.symm
          simp only [cloudSysStep, this, if_false]
          exact le_rfl
      | restart j g =>
        rw [List.countP_cons_of_neg (by simp)]
        have : i ≠ j := by
          rintro rfl
          exact hn g (by simp)
        simp only [cloudSysStep, this, if_false]
        exact le_rfl
  have hall : ∀ ev ∈ evs, ev.Allowed G := by
    intro ev he
    cases ev with
    | step j => trivial
    | restart j g => exact hev j g he
  have h := gen evs ⟨fs, fun _ => .start, g0⟩ (fun j => ⟨hfs j, hg0 j⟩) hall hno
  have h0 : cloudLeft ((cloudSysRun w cfg seed ⟨fs, fun _ => .start, g0⟩ evs).pc i) = 0 := by
    have : cloudLeft (Pc.start : Pc ρ) = 5 := rfl
    simp only [this] at h
    omega
  rcases hp : (cloudSysRun w cfg seed ⟨fs, fun _ => .start, g0⟩ evs).pc i
    with _ | _ | _ | _ | _ | _ | _ | res
  case done =>
    rw [(C48_cloud_safe w hw cfg seed G out hsame hout hread fs hfs g0 hg0 evs hev i).1 res hp]
  all_goals rw [hp] at h0; cases h0

/-- Two processes evaluate one trial and a third, restarted, another one, in an environment in which
results cut after the header can be read (the one of `C48_full_is_false`). -/
example : (∀ (i j : Fin 3), resultsPath (![exTrial, exTrial, exTrial2] i) =
        resultsPath (![exTrial, exTrial, exTrial2] j) →
      (Except.ok (exRow (![exTrial, exTrial, exTrial2] i) 7 0) : Except PyErr (List Text)) =
        .ok (exRow (![exTrial, exTrial, exTrial2] j) 7 0)) ∧
    (∀ (i : Fin 3) (g : Nat), ((exWorld 13 false false).outcome
      (![exTrial, exTrial, exTrial2] i) 7 g).1 = .ok (exRow (![exTrial, exTrial, exTrial2] i) 7 0)) ∧
    (∀ i : Fin 3, (exWorld 13 false false).readCsv ((exWorld 13 false false).toCsv
      (exRow (![exTrial, exTrial, exTrial2] i) 7 0)) =
        .ok (exRow (![exTrial, exTrial, exTrial2] i) 7 0)) ∧
    ((cloudSysRun (exWorld 13 false false) (![exTrial, exTrial, exTrial2] : Fin 3 → TrialConfig) 7
      ⟨fun _ => none, fun _ => .start, fun _ => 5⟩
      [.step 0, .step 1, .step 0, .step 0, .step 2, .restart 2 5, .step 0, .step 1, .step 1, .step 1,
        .step 0]).fs "d/e/ds/t.csv") = some "seed,type,gen\n7,,0\n".toList := by
  refine ⟨by intro i j _; revert i j; decide +kernel, fun _ _ => rfl, by decide +kernel,
    by decide +kernel⟩

/-- **C48 (cloud, unreadable objects).** The safety of simultaneous evaluations depends on complete
objects at the start: if the object of the trial is unreadable - say, left by something else - two
evaluations that both find it so want to remove it, and the second raises a `FileNotFoundError`. -/
theorem C48_cloud_unreadable (w : World ρ γ) (c : TrialConfig) (seed : Int) (fs : Files) (txt : Text)
    (e : PyErr) (hf : fs (resultsPath c) = some txt) (hr : w.readCsv txt = .error e) (gen : Fin 2 → γ) :
    (cloudSysRun w (fun _ : Fin 2 => c) seed ⟨fs, fun _ => .start, gen⟩
      [.step 0, .step 1, .step 0, .step 1, .step 0, .step 1]).pc 1 = .done (.error .fileNotFound) := by
  simp [cloudSysRun, cloudSysStep, cloudTrialStep, hf, hr, setFile]

/-- An unfinished table in a world where tables end with a newline. -/
example : (exWorld 13 false true).readCsv "seed,ty".toList = .error .valueError := by decide +kernel

/-! ## Local disk: several evaluations of one trial -/

/-- The same claim for the local disk, where no partly written result can be read: if evaluations of
one trial run at the same time, each that ends gives the outcome of the trial. -/
def C48_duplicates_full : Prop :=
  ∀ (ρ γ : Type) (w : World ρ γ) (c : TrialConfig) (seed : Int) (r : ρ) (n : Nat) (g0 : γ),
    HexDigest w → (∀ g, (w.outcome c seed g).1 = .ok r) → w.readCsv (w.toCsv r) = .ok r →
    TornUnreadable w (w.toCsv r) →
    ∀ (evs : List (Event γ (Fin n))) (i : Fin n) (res : Except PyErr ρ),
      (sysRun w (fun _ : Fin n => c) seed ⟨fun _ => none, fun _ => .start, fun _ => g0⟩ evs).pc i
        = .done res → res = .ok r

/-- It is false: while one process has created the result file but not filled it, two others find it
unreadable; the first of them removes it, and the second raises a `FileNotFoundError`. -/
theorem C48_duplicates_full_is_false : ¬ C48_duplicates_full := by
  intro h
  have := h Nat Unit ⟨fun _ _ g => (.ok 3, g), exGenWorld.toCsv, exGenWorld.readCsv,
      exGenWorld.md5, fun _ => [], 0⟩ exTrial 7 3 3 () exGenWorld_hex (fun _ => rfl)
      (exGenWorld_read 3) (exGenWorld_torn 3)
      [.step 0, .step 0, .step 0, .step 0, .step 1, .step 2, .step 1, .step 2, .step 1, .step 2] 2
      (.error .fileNotFound) rfl
  cases this

/-! ## Wrappers and runners -/

/-- **C83 (runner and directory).** The driver's wrapper must suit the directory of the intermediate
results.  On Dataflow every trial is refused with a `ValueError` unless the directory is on cloud
storage; elsewhere every trial is refused with an `AttributeError` if the directory begins with
`gs://`, and otherwise evaluated.  A refused trial changes no file. -/
theorem C83_runner (runner : String) (w : World ρ γ) (c : TrialConfig) (seed : Int) (fs : Files)
    (g : γ) :
    (runner = "dataflow" ∨ runner = "DataflowRunner" →
      (("gs://".toList <+: c.experimentDir.toList ∨ "s3://".toList <+: c.experimentDir.toList ∨
          "az://".toList <+: c.experimentDir.toList) →
        evaluateWith (wrapperFor runner) w c seed fs g = evaluate w c seed fs g) ∧
      (':' ∉ c.experimentDir.toList → ':' ∉ c.dataSetName.toList → ':' ∉ c.descriptor.toList →
        evaluateWith (wrapperFor runner) w c seed fs g = (.error .valueError, fs, g))) ∧
    (runner ≠ "dataflow" → runner ≠ "DataflowRunner" →
      ("gs://".toList <+: c.experimentDir.toList →
        evaluateWith (wrapperFor runner) w c seed fs g = (.error .attributeError, fs, g)) ∧
      (¬ "gs://".toList <+: (resultsPath c).toList →
        evaluateWith (wrapperFor runner) w c seed fs g = evaluate w c seed fs g)) := by
  have hpre : ∀ p : List Char, p <+: c.experimentDir.toList → p <+: (resultsPath c).toList := by
    intro p hp
    unfold resultsPath
    simp only [String.toList_append, List.append_assoc]
    exact hp.trans (List.prefix_append _ _)
  constructor
  · intro hrun
    have hwrap : wrapperFor runner = .cloudpath := by
      unfold wrapperFor
      rw [if_pos (by rcases hrun with rfl | rfl <;> simp)]
    rw [hwrap]
    constructor
    · intro h
      have : checkPath .cloudpath (resultsPath c) = .ok () := by
        unfold checkPath cloudPath
        simp only
        rw [if_pos]
        simp only [List.any_cons, List.any_nil, Bool.or_false, Bool.or_eq_true,
          List.isPrefixOf_iff_prefix]
        rcases h with h | h | h
        · exact Or.inl (hpre _ h)
        · exact Or.inr (Or.inl (hpre _ h))
        · exact Or.inr (Or.inr (hpre _ h))
      simp only [evaluateWith, this]
    · intro h1 h2 h3
      have hno : ':' ∉ (resultsPath c).toList := by
        unfold resultsPath
        simp only [String.toList_append, List.mem_append, not_or]
        exact ⟨⟨⟨⟨⟨h1, by decide⟩, h2⟩, by decide⟩, h3⟩, by decide⟩
      have : checkPath .cloudpath (resultsPath c) = .error .valueError := by
        unfold checkPath cloudPath
        simp only
        rw [if_neg]
        simp only [List.any_cons, List.any_nil, Bool.or_false, Bool.or_eq_true,
          List.isPrefixOf_iff_prefix, not_or]
        exact ⟨fun h => hno (h.subset (by decide)), fun h => hno (h.subset (by decide)),
          fun h => hno (h.subset (by decide))⟩
      simp only [evaluateWith, this]
  · intro hr1 hr2
    have hwrap : wrapperFor runner = .pathlib := by
      unfold wrapperFor
      rw [if_neg (by simp [hr1, hr2])]
    rw [hwrap]
    constructor
    · intro h
      have : checkPath .pathlib (resultsPath c) = .error .attributeError := by
        unfold checkPath isGsPath
        simp only
        rw [if_pos (List.isPrefixOf_iff_prefix.2 (hpre _ h))]
      simp only [evaluateWith, this]
    · intro h
      have : checkPath .pathlib (resultsPath c) = .ok () := by
        unfold checkPath isGsPath
        simp only
        rw [if_neg (fun hh => h (List.isPrefixOf_iff_prefix.1 hh))]
      simp only [evaluateWith, this]

/-- A bucket on the direct runner, a local directory on Dataflow, and the proper combinations. -/
example : (evaluateWith (wrapperFor "DirectRunner") (exWorld 13 false false)
      { exTrial with experimentDir := "gs://b/e" } 7 (fun _ => none) 5).1 = .error .attributeError ∧
    (evaluateWith (wrapperFor "dataflow") (exWorld 13 false false) exTrial 7 (fun _ => none) 5).1 =
      .error .valueError ∧
    (evaluateWith (wrapperFor "DataflowRunner") (exWorld 13 false false)
      { exTrial with experimentDir := "gs://b/e" } 7 (fun _ => none) 5).1 = .ok (exRow exTrial 7 0) ∧
    (evaluateWith (wrapperFor "DirectRunner") (exWorld 13 false false) exTrial 7 (fun _ => none) 5).1
      = .ok (exRow exTrial 7 0) := by decide +kernel

end Verif
