import Verif.Lemmas.Trial
import Mathlib.Tactic.IntervalCases

/-!
# Results about trials and designs (C48, C49, C50)
-/

namespace Verif

variable {ρ γ : Type}

/-! ## A small environment for examples

Tables are lists of lines, generator states are numbers. -/

/-- Result of a trial: a header and a line showing seed, analysis type and generator. -/
def exRow (c : TrialConfig) (seed : Int) (g : Nat) : List Text :=
  ["seed,type,gen".toList,
    showInt seed ++ ",".toList ++ c.analysisType.toList ++ ",".toList ++ showNat g]

/-- Reading: a table has a header. -/
def exRead (txt : Text) : Except PyErr (List Text) :=
  if txt = [] then .error .valueError else .ok ((pyLines txt).map (·.filter (· ≠ '\n')))

/-- An environment; `shared` says whether the result depends on the generator, `strict` whether
tables without a final newline are refused. -/
def exWorld (buffer : Nat) (shared strict : Bool) : World (List Text) Nat where
  outcome c seed g := (.ok (exRow c seed (if shared then g else 0)), g + 1)
  toCsv r := (r.map (· ++ ['\n'])).flatten
  readCsv txt := if strict && txt.getLast? != some '\n' then .error .valueError else exRead txt
  md5 _ := "0a"
  pendingText c := c.dataSetName.toList
  buffer := buffer

/-- A trial. -/
def exTrial : TrialConfig := ⟨"d/e", "ds", "t", 0, ""⟩

/-- Another trial. -/
def exTrial2 : TrialConfig := ⟨"d/e", "ds", "u", 0, ""⟩

theorem exWorld_hex (b : Nat) (s t : Bool) : HexDigest (exWorld b s t) := by
  intro x
  refine ⟨by simp only [exWorld]; decide, ?_⟩
  simp only [exWorld]
  decide

/-! ## C48: crashes -/

/-- **C48 (the two descriptions agree).** Steps of one evaluation, taken without interference, lead
to the result, files and generators of `evaluate`. -/
theorem C48_steps (w : World ρ γ) (c : TrialConfig) (seed : Int) (fs : Files) (g : γ) :
    ∃ n, (trialStep w c seed)^[n] (fs, .start, g) =
      ((evaluate w c seed fs g).2.1, .done (evaluate w c seed fs g).1,
        (evaluate w c seed fs g).2.2) :=
  steps_evaluate w c seed fs g

/-- An evaluation in steps of 100 characters: two for the pending file, two for the result. -/
example : ((trialStep (exWorld 99 true false) exTrial 7)^[7] (fun _ => none, .start, 5)).2.2 = 6 ∧
    ((trialStep (exWorld 99 true false) exTrial 7)^[7] (fun _ => none, .start, 5)).1
      "d/e/ds/t.csv" = some "seed,type,gen\n7,,5\n".toList := by
  decide +kernel

/-- **C48 (full statement, false).** After any steps and crashes, evaluating the trial gives the
result of an evaluation that was never disturbed. -/
def C48_full : Prop :=
  ∀ (ρ γ : Type) (w : World ρ γ) (c : TrialConfig) (seed : Int) (g0 : γ) (r : ρ),
    HexDigest w → (w.outcome c seed g0).1 = .ok r → w.readCsv (w.toCsv r) = .ok r →
    (∃ e, w.readCsv [] = .error e) →
    ∀ evs : List (Event γ Unit), (∀ i g, Event.restart i g ∈ evs → g = g0) →
      (evaluate w c seed
        (sysRun w (fun _ => c) seed ⟨fun _ => none, fun _ => .start, fun _ => g0⟩ evs).fs g0).1 =
        .ok r

/-- The full statement fails: a table cut after its header is still a table. -/
theorem C48_full_is_false : ¬ C48_full := by
  intro h
  have := h _ _ (exWorld 13 false false) exTrial 7 5 (exRow exTrial 7 0) (exWorld_hex _ _ _) rfl
    (by decide +kernel) ⟨.valueError, by decide +kernel⟩
    [.step (), .step (), .step (), .step (), .step (), .step (), .restart () 5]
    (by intro i g hg; simpa using hg)
  revert this
  decide +kernel

/-- **C48 (partial).** Any number of trials with different result files are evaluated at the same
time, with any interleaving, crashes and restarts.  If no partly written result can be read as a
table and a written result is read back unchanged, then evaluating a trial afterwards gives what an
undisturbed evaluation gives, every evaluation that ended gave that as well, and the files
of successful trials that ended hold the complete result.  Missing: results cut at a place where they
still read as a table (`C48_full_is_false`). -/
theorem C48_crash_safe_partial {ι : Type} [DecidableEq ι] (w : World ρ γ) (hw : HexDigest w)
    (cfg : ι → TrialConfig) (seed : Int)
    (hinj : ∀ i j, resultsPath (cfg i) = resultsPath (cfg j) → i = j)
    (g0 : ι → γ)
    (hread : ∀ i r, (w.outcome (cfg i) seed (g0 i)).1 = .ok r → w.readCsv (w.toCsv r) = .ok r)
    (htorn : ∀ i r, (w.outcome (cfg i) seed (g0 i)).1 = .ok r → TornUnreadable w (w.toCsv r))
    (fs : Files) (hfs : ∀ i, fs (resultsPath (cfg i)) = none)
    (evs : List (Event γ ι)) (hev : ∀ i g, Event.restart i g ∈ evs → g = g0 i) (i : ι) :
    let s := sysRun w cfg seed ⟨fs, fun _ => .start, g0⟩ evs
    (evaluate w (cfg i) seed s.fs (g0 i)).1 = (evaluate w (cfg i) seed fs (g0 i)).1 ∧
    (∀ res, s.pc i = .done res → res = (evaluate w (cfg i) seed fs (g0 i)).1) ∧
    (∀ r, s.pc i = .done (.ok r) → s.fs (resultsPath (cfg i)) = some (w.toCsv r)) := by
  intro s
  let out : ι → Except PyErr ρ := fun i => (w.outcome (cfg i) seed (g0 i)).1
  have hinv : SysInv w cfg (fun i g => g = g0 i) out s := by
    refine sysRun_inv w hw cfg seed hinj (fun i g => g = g0 i) out ?_ htorn evs _ ?_ ?_
    · rintro i g rfl; rfl
    · intro i
      refine ⟨rfl, ?_⟩
      change Recoverable w _ (fs _)
      rw [hfs]; trivial
    · intro ev h
      cases ev with
      | step i => trivial
      | restart i g => exact hev i g h
  have hans : ∀ res, Answer w (out i) res → res = out i := by
    intro res h
    rcases h with h | ⟨r, h1, h2⟩
    · exact h
    · rw [h2, hread i r h1, h1]
  have h0 : (evaluate w (cfg i) seed fs (g0 i)).1 = out i :=
    hans _ (evaluate_recoverable w hw (cfg i) seed (out i) fs (g0 i) rfl
      (by rw [hfs]; trivial)).1
  have h1 : (evaluate w (cfg i) seed s.fs (g0 i)).1 = out i :=
    hans _ (evaluate_recoverable w hw (cfg i) seed (out i) s.fs (g0 i) rfl
      (hinv i).recoverable).1
  refine ⟨by rw [h0, h1], ?_, ?_⟩
  · intro res hres
    have := hinv i
    rw [hres] at this
    rw [h0]
    exact hans _ this.1
  · intro r hres
    have := hinv i
    rw [hres] at this
    exact this.2.2 r (hans _ this.1).symm

/-- **C48 (partial, small results).** A result that fits into one piece (and an empty file that is
refused) survives crashes at any point. -/
theorem C48_one_piece_partial {ι : Type} [DecidableEq ι] (w : World ρ γ) (hw : HexDigest w)
    (cfg : ι → TrialConfig) (seed : Int)
    (hinj : ∀ i j, resultsPath (cfg i) = resultsPath (cfg j) → i = j)
    (g0 : ι → γ) (hempty : ∃ e, w.readCsv [] = .error e)
    (hread : ∀ i r, (w.outcome (cfg i) seed (g0 i)).1 = .ok r →
      w.readCsv (w.toCsv r) = .ok r ∧ (w.toCsv r).length ≤ w.buffer + 1)
    (fs : Files) (hfs : ∀ i, fs (resultsPath (cfg i)) = none)
    (evs : List (Event γ ι)) (hev : ∀ i g, Event.restart i g ∈ evs → g = g0 i) (i : ι) :
    (evaluate w (cfg i) seed (sysRun w cfg seed ⟨fs, fun _ => .start, g0⟩ evs).fs (g0 i)).1 =
      (evaluate w (cfg i) seed fs (g0 i)).1 := by
  refine (C48_crash_safe_partial w hw cfg seed hinj g0 (fun i r h => (hread i r h).1) ?_ fs hfs evs
    hev i).1
  intro i r h k hk
  have hl := (hread i r h).2
  have hk0 : k = 0 := by
    rcases Nat.eq_zero_or_pos k with h | h
    · exact h
    · have : 1 * (w.buffer + 1) ≤ k * (w.buffer + 1) := Nat.mul_le_mul_right _ h
      omega
  subst hk0
  simpa [torn] using hempty

/-- Two trials, results of 19 characters in pieces of 20, several crashes. -/
example : let w := exWorld 19 true false
    let cfg : Bool → TrialConfig := fun b => if b then exTrial else exTrial2
    (evaluate w exTrial 7 (sysRun w cfg 7 ⟨fun _ => none, fun _ => .start, fun _ => 5⟩
      [.step true, .step false, .step true, .step true, .step true, .restart true 5,
        .step false, .step true, .step true, .step true]).fs 5).1 =
      (evaluate w exTrial 7 (fun _ => none) 5).1 :=
  C48_one_piece_partial (exWorld 19 true false) (exWorld_hex _ _ _)
    (fun b => if b then exTrial else exTrial2) 7
    (by intro i j h; revert i j; decide +kernel) (fun _ => 5) ⟨.valueError, by decide +kernel⟩
    (by
      intro i r h
      cases i <;>
      · simp only [exWorld, Except.ok.injEq] at h
        subst h
        decide +kernel)
    (fun _ => none) (fun _ => rfl) _ (by intro i g h; simp at h; exact h.2) true

/-- The hypotheses of `C48_crash_safe_partial` for a reader that insists on a final newline and
pieces of 4 characters: all partly written results are refused. -/
example : let w := exWorld 3 false true
    (evaluate w exTrial 7 (sysRun w (fun _ : Unit => exTrial) 7
      ⟨fun _ => none, fun _ => .start, fun _ => 5⟩
      ((List.replicate 6 (.step ())) ++ [.restart () 5])).fs 5).1 =
      (evaluate w exTrial 7 (fun _ => none) 5).1 :=
  (C48_crash_safe_partial (exWorld 3 false true) (exWorld_hex _ _ _) (fun _ : Unit => exTrial) 7
    (fun _ _ _ => rfl) (fun _ => 5)
    (by
      intro i r h
      simp only [exWorld, Except.ok.injEq] at h
      subst h
      decide +kernel)
    (by
      intro i r h k hk
      simp only [exWorld, Except.ok.injEq] at h
      subst h
      refine ⟨.valueError, ?_⟩
      have : k < 5 := by
        have h19 : ((exWorld 3 false true).toCsv (exRow exTrial 7 0)).length = 19 := by
          decide +kernel
        simp only [Bool.false_eq_true, if_false] at hk
        rw [h19] at hk
        simp only [exWorld] at hk
        omega
      simp only [Bool.false_eq_true, if_false]
      interval_cases k <;> decide +kernel)
    (fun _ => none) (fun _ => rfl) _ (by intro i g h; simp at h; exact h) ()).1

/-- **C48 (what an evaluation leaves behind).** An evaluation that had to compute its result and
succeeded leaves the result file and no pending file, and touches nothing else; one that found a
readable result touches nothing. -/
theorem C48_files (w : World ρ γ) (hw : HexDigest w) (c : TrialConfig) (seed : Int) (fs : Files)
    (g : γ) :
    (∀ r, fs (resultsPath c) = none → (w.outcome c seed g).1 = .ok r →
      (evaluate w c seed fs g).2.1 =
        setFile (setFile fs (resultsPath c) (some (w.toCsv r))) (pendingPath w c) none) ∧
    (∀ txt t, fs (resultsPath c) = some txt → w.readCsv txt = .ok t →
      evaluate w c seed fs g = (.ok t, fs, g)) := by
  have hne := path_ne_pending w hw c c
  constructor
  · intro r hf ho
    rcases h : w.outcome c seed g with ⟨res, g'⟩
    rw [h] at ho
    simp only at ho
    subst ho
    simp only [evaluate, hf, computeTrial, h]
    funext p
    by_cases h1 : p = pendingPath w c
    · simp [setFile, h1]
    · by_cases h2 : p = resultsPath c
      · subst h2; simp [setFile, hne]
      · simp [setFile, h1, h2]
  · intro txt t hf hr
    simp only [evaluate, hf, hr]

/-- **C48 (where trials write).** Whatever happens, evaluations write nothing but the result files
`<experiment directory>/<data set>/<description>.csv` of their trials and files in the directory
`pending` beside the experiment directory. -/
theorem C48_touched {ι : Type} [DecidableEq ι] (w : World ρ γ) (cfg : ι → TrialConfig) (seed : Int)
    (evs : List (Event γ ι)) (p : String)
    (h1 : ∀ i, p ≠ (cfg i).experimentDir ++ "/" ++ (cfg i).dataSetName ++ "/" ++ (cfg i).descriptor ++
      ".csv")
    (h2 : ∀ i name, p ≠ parentPath (cfg i).experimentDir ++ "/pending/" ++ name) :
    ∀ s : Sys ρ γ ι, (sysRun w cfg seed s evs).fs p = s.fs p := by
  induction evs with
  | nil => intro s; rfl
  | cons ev evs ih =>
    intro s
    refine (ih (sysStep w cfg seed s ev)).trans ?_
    cases ev with
    | step i => exact trialStep_frame w (cfg i) seed s.fs (s.pc i) (s.gen i) p (h1 i) (h2 i _)
    | restart i g => rfl

/-- A file of the same name in another directory is left alone. -/
example (evs : List (Event Nat Unit)) :
    (sysRun (exWorld 13 false false) (fun _ : Unit => exTrial) 7
      ⟨fun p => if p = "d/f/ds/t.csv" then some ['x'] else none, fun _ => .start, fun _ => 5⟩ evs).fs
      "d/f/ds/t.csv" = some ['x'] := by
  rw [C48_touched _ _ _ evs "d/f/ds/t.csv" (fun _ => by decide +kernel)]
  · rfl
  · intro _ name h
    have h2 := congrArg String.toList h
    have h3 : (parentPath exTrial.experimentDir ++ "/pending/").toList = "d/pending/".toList := by
      decide +kernel
    rw [String.toList_append, h3] at h2
    have h4 := congrArg (List.take 3) h2
    simp at h4

/-- **C48 (a finding).** If the process dies between writing the result and removing the pending
file, the trial is listed as pending for ever: no later evaluation removes the file. -/
theorem C48_stale_pending (w : World ρ γ) (hw : HexDigest w) (c : TrialConfig) (seed : Int)
    (fs : Files) (g : γ) (r t : ρ) (hf : fs (resultsPath c) = none)
    (ho : (w.outcome c seed g).1 = .ok r) (hr : w.readCsv (w.toCsv r) = .ok t) :
    ∃ n,
      let s := sysRun w (fun _ : Unit => c) seed ⟨fs, fun _ => .start, fun _ => g⟩
        (List.replicate n (Event.step ()) ++ [Event.restart () g])
      s.fs (pendingPath w c) = some (w.pendingText c) ∧
      ∀ seed' g', evaluate w c seed' s.fs g' = (.ok t, s.fs, g') := by
  have hne := path_ne_pending w hw c c
  have hrun : ∀ n (s : Sys ρ γ Unit),
      sysRun w (fun _ : Unit => c) seed s (List.replicate n (.step ())) =
        let q := (trialStep w c seed)^[n] (s.fs, s.pc (), s.gen ())
        ⟨q.1, fun _ => q.2.1, fun _ => q.2.2⟩ := by
    intro n
    induction n with
    | zero => intro s; rfl
    | succ n ih =>
      intro s
      rw [List.replicate_succ]
      change sysRun w _ seed (sysStep w _ seed s (.step ())) _ = _
      rw [ih, Function.iterate_succ_apply]
      rfl
  rcases h : w.outcome c seed g with ⟨res, g1⟩
  rw [h] at ho
  simp only at ho
  subst ho
  have hsteps : ∃ n, (trialStep w c seed)^[n] (fs, .start, g) =
      (setFile (setFile fs (pendingPath w c) (some (w.pendingText c))) (resultsPath c)
        (some (w.toCsv r)), .cleanup r, g1) := by
    refine iterate_trans _ (iterate_one' _ _) ?_
    simp only [trialStep, hf, Option.isSome_none, Bool.false_eq_true, if_false]
    refine iterate_trans _ (iterate_pending w c seed fs g _ 0 le_rfl) ?_
    refine iterate_trans _ (iterate_one' _ _) ?_
    simp only [trialStep, h]
    exact iterate_writing w c seed _ g1 r _ 0 _ le_rfl (fun _ _ => rfl)
  obtain ⟨n, hn⟩ := hsteps
  refine ⟨n, ?_⟩
  have hs : (sysRun w (fun _ : Unit => c) seed ⟨fs, fun _ => .start, fun _ => g⟩
        (List.replicate n (.step ()) ++ [.restart () g])).fs =
      setFile (setFile fs (pendingPath w c) (some (w.pendingText c))) (resultsPath c)
        (some (w.toCsv r)) := by
    unfold sysRun
    rw [List.foldl_append]
    have := hrun n ⟨fs, fun _ => .start, fun _ => g⟩
    unfold sysRun at this
    rw [this]
    simp only [hn]
    rfl
  simp only
  rw [hs]
  refine ⟨?_, ?_⟩
  · rw [setFile_other _ _ hne.symm, setFile_same]
  · intro seed' g'
    simp only [evaluate, setFile_same, hr]

/-! ## C49: which result is returned -/

/-- Evaluations one after the other, in one or several processes: `gens` are the generator states
they start from. -/
def runAll (w : World ρ γ) : List (TrialConfig × Int) → Files → (Nat → γ) → List (Except PyErr ρ)
  | [], _, _ => []
  | q :: qs, fs, gens =>
    (evaluate w q.1 q.2 fs (gens 0)).1 ::
      runAll w qs (evaluate w q.1 q.2 fs (gens 0)).2.1 (fun n => gens (n + 1))

/-- **C49 (full statement, false).** Every evaluation returns the result for its own seed and
analysis type. -/
def C49_full : Prop :=
  ∀ (ρ γ : Type) (w : World ρ γ) (out : TrialConfig → Int → Except PyErr ρ),
    HexDigest w → (∀ c seed g, (w.outcome c seed g).1 = out c seed) →
    (∀ c seed r, out c seed = .ok r → w.readCsv (w.toCsv r) = .ok r) →
    ∀ (qs : List (TrialConfig × Int)) (gens : Nat → γ),
      runAll w qs (fun _ => none) gens = qs.map (fun q => out q.1 q.2)

/-- An environment in which the result is the seed (in unary). -/
def exSeedWorld : World Nat Unit where
  outcome c seed g := (.ok (seed.toNat + c.analysisType.length), g)
  toCsv n := List.replicate n 'x'
  readCsv txt := .ok txt.length
  md5 _ := "0"
  pendingText _ := []
  buffer := 0

theorem exSeedWorld_hex : HexDigest exSeedWorld := by
  intro x
  refine ⟨by simp only [exSeedWorld]; decide, ?_⟩
  simp only [exSeedWorld]
  decide

/-- The full statement fails for two seeds, and for two analysis types. -/
theorem C49_full_is_false : ¬ C49_full := by
  intro h
  have := h _ _ exSeedWorld (fun c seed => .ok (seed.toNat + c.analysisType.length))
    exSeedWorld_hex (fun _ _ _ => rfl)
    (by intro c s r _; simp [exSeedWorld])
    [(exTrial, 1), (exTrial, 2)] (fun _ => ())
  revert this
  decide +kernel

/-- The same with equal seeds and different analysis types. -/
example : runAll exSeedWorld [(exTrial, 1), ({ exTrial with analysisType := "single_pub" }, 1)]
    (fun _ => none) (fun _ => ()) = [.ok 1, .ok 1] := by
  decide +kernel

/-- Success of a result. -/
def isOk (x : Except PyErr ρ) : Bool := match x with | .ok _ => true | .error _ => false

/-- The first request among `pre` for the same result file that succeeds. -/
def firstSuccess (out : TrialConfig → Int → Except PyErr ρ) (pre : List (TrialConfig × Int))
    (c : TrialConfig) : Option (TrialConfig × Int) :=
  pre.find? (fun q => decide (resultsPath q.1 = resultsPath c) && isOk (out q.1 q.2))

/-- What the files hold after the requests `pre`. -/
def CacheInv (w : World ρ γ) (out : TrialConfig → Int → Except PyErr ρ)
    (pre : List (TrialConfig × Int)) (fs : Files) : Prop :=
  ∀ c, match firstSuccess out pre c with
    | none => fs (resultsPath c) = none
    | some q => ∃ r, out q.1 q.2 = .ok r ∧ fs (resultsPath c) = some (w.toCsv r)

theorem firstSuccess_congr (out : TrialConfig → Int → Except PyErr ρ)
    (pre : List (TrialConfig × Int)) {c d : TrialConfig} (h : resultsPath c = resultsPath d) :
    firstSuccess out pre c = firstSuccess out pre d := by
  unfold firstSuccess; rw [h]

theorem firstSuccess_snoc (out : TrialConfig → Int → Except PyErr ρ)
    (pre : List (TrialConfig × Int)) (q : TrialConfig × Int) (c : TrialConfig) :
    firstSuccess out (pre ++ [q]) c =
      (firstSuccess out pre c).or
        (if resultsPath q.1 = resultsPath c ∧ isOk (out q.1 q.2) = true then some q else none) := by
  unfold firstSuccess
  rw [List.find?_append]
  congr 1
  by_cases h : resultsPath q.1 = resultsPath c ∧ isOk (out q.1 q.2) = true
  · rw [if_pos h, List.find?_cons_of_pos]
    simpa using h
  · rw [if_neg h, List.find?_cons_of_neg]
    · rfl
    · simpa using h

theorem cache_step (w : World ρ γ) (hw : HexDigest w) (out : TrialConfig → Int → Except PyErr ρ)
    (hout : ∀ c seed g, (w.outcome c seed g).1 = out c seed)
    (hread : ∀ c seed r, out c seed = .ok r → w.readCsv (w.toCsv r) = .ok r)
    (pre : List (TrialConfig × Int)) (fs : Files) (h : CacheInv w out pre fs)
    (q : TrialConfig × Int) (g : γ) :
    (evaluate w q.1 q.2 fs g).1 = ((firstSuccess out pre q.1).map
      (fun p => out p.1 p.2)).getD (out q.1 q.2) ∧
    CacheInv w out (pre ++ [q]) (evaluate w q.1 q.2 fs g).2.1 := by
  have hq := h q.1
  have hne : ∀ d, resultsPath d ≠ pendingPath w q.1 := fun d => path_ne_pending w hw d q.1
  rcases hfs : firstSuccess out pre q.1 with _ | p
  · rw [hfs] at hq
    simp only at hq
    have ho := hout q.1 q.2 g
    rcases hoc : w.outcome q.1 q.2 g with ⟨e | r, g'⟩
    · rw [hoc] at ho
      simp only at ho
      simp only [evaluate, hq, computeTrial, hoc, Option.map_none, Option.getD_none]
      refine ⟨ho, ?_⟩
      intro c
      rw [firstSuccess_snoc, if_neg (by rw [← ho]; simp [isOk]), Option.or_none,
        setFile_other _ _ (hne c)]
      exact h c
    · rw [hoc] at ho
      simp only at ho
      simp only [evaluate, hq, computeTrial, hoc, Option.map_none, Option.getD_none]
      refine ⟨ho, ?_⟩
      intro c
      rw [firstSuccess_snoc, setFile_other _ _ (hne c)]
      by_cases hc : resultsPath q.1 = resultsPath c
      · rw [← firstSuccess_congr out pre hc, hfs, if_pos ⟨hc, by rw [← ho]; rfl⟩]
        exact ⟨r, ho.symm, by rw [← hc, setFile_same]⟩
      · rw [if_neg (fun hh => hc hh.1), Option.or_none, setFile_other _ _ (Ne.symm hc),
          setFile_other _ _ (hne c)]
        exact h c
  · rw [hfs] at hq
    obtain ⟨r, hr1, hr2⟩ := hq
    simp only [evaluate, hr2, hread _ _ _ hr1, Option.map_some, Option.getD_some]
    refine ⟨hr1.symm, ?_⟩
    intro c
    rw [firstSuccess_snoc]
    by_cases hc : resultsPath q.1 = resultsPath c
    · rw [← firstSuccess_congr out pre hc, hfs]
      exact ⟨r, hr1, by rw [← hc]; exact hr2⟩
    · rw [if_neg (fun hh => hc hh.1), Option.or_none]
      exact h c

theorem runAll_cache (w : World ρ γ) (hw : HexDigest w) (out : TrialConfig → Int → Except PyErr ρ)
    (hout : ∀ c seed g, (w.outcome c seed g).1 = out c seed)
    (hread : ∀ c seed r, out c seed = .ok r → w.readCsv (w.toCsv r) = .ok r)
    (qs : List (TrialConfig × Int)) : ∀ (done : List (TrialConfig × Int)) (fs : Files)
    (gens : Nat → γ), CacheInv w out done fs →
    ∀ pre q post, qs = pre ++ q :: post →
      (runAll w qs fs gens)[pre.length]? = some (((firstSuccess out (done ++ pre) q.1).map
        (fun p => out p.1 p.2)).getD (out q.1 q.2)) := by
  induction qs with
  | nil => intro done fs gens h pre q post he; simp at he
  | cons a qs ih =>
    intro done fs gens h pre q post he
    obtain ⟨h1, h2⟩ := cache_step w hw out hout hread done fs h a (gens 0)
    cases pre with
    | nil =>
      simp only [List.nil_append, List.cons.injEq] at he
      obtain ⟨rfl, -⟩ := he
      simp [runAll, h1]
    | cons b pre =>
      simp only [List.cons_append, List.cons.injEq] at he
      obtain ⟨rfl, he⟩ := he
      have := ih (done ++ [a]) _ (fun n => gens (n + 1)) h2 pre q post he
      simp only [runAll, List.length_cons, List.getElem?_cons_succ]
      rw [this]
      simp

/-- **C49 (what is returned instead).** In every history of evaluations, each returns the result of
the first successful evaluation that used the same result file, whatever seed, analysis type or
hidden parameter that one had; its own result only if there is none. -/
theorem C49_first_wins (w : World ρ γ) (hw : HexDigest w)
    (out : TrialConfig → Int → Except PyErr ρ)
    (hout : ∀ c seed g, (w.outcome c seed g).1 = out c seed)
    (hread : ∀ c seed r, out c seed = .ok r → w.readCsv (w.toCsv r) = .ok r)
    (pre : List (TrialConfig × Int)) (q : TrialConfig × Int) (post : List (TrialConfig × Int))
    (gens : Nat → γ) :
    (runAll w (pre ++ q :: post) (fun _ => none) gens)[pre.length]? =
      some (match pre.find? (fun p => decide (resultsPath p.1 = resultsPath q.1) &&
          isOk (out p.1 p.2)) with
        | some p => out p.1 p.2
        | none => out q.1 q.2) := by
  have := runAll_cache w hw out hout hread (pre ++ q :: post) [] (fun _ => none) gens
    (fun c => rfl) pre q post rfl
  rw [this]
  simp only [List.nil_append, firstSuccess]
  rcases List.find? _ pre with _ | p <;> rfl

/-- **C49 (partial).** If requests for the same result file are the same request, every evaluation
returns its own result.  Missing: histories in which seed, analysis type or a parameter not shown in
the description varies (`C49_full_is_false`). -/
theorem C49_same_request_partial (w : World ρ γ) (hw : HexDigest w)
    (out : TrialConfig → Int → Except PyErr ρ)
    (hout : ∀ c seed g, (w.outcome c seed g).1 = out c seed)
    (hread : ∀ c seed r, out c seed = .ok r → w.readCsv (w.toCsv r) = .ok r)
    (qs : List (TrialConfig × Int))
    (hsame : ∀ p ∈ qs, ∀ q ∈ qs, resultsPath p.1 = resultsPath q.1 → p = q) (gens : Nat → γ) :
    runAll w qs (fun _ => none) gens = qs.map (fun q => out q.1 q.2) := by
  have hlen : ∀ (qs : List (TrialConfig × Int)) (fs : Files) (gens : Nat → γ),
      (runAll w qs fs gens).length = qs.length := by
    intro qs
    induction qs with
    | nil => intros; rfl
    | cons a qs ih => intro fs gens; simp [runAll, ih]
  apply List.ext_getElem?
  intro n
  by_cases hn : n < qs.length
  · have hsplit : qs = qs.take n ++ qs[n] :: qs.drop (n + 1) := by simp
    have hl : (qs.take n).length = n := by simp [Nat.le_of_lt hn]
    have := C49_first_wins w hw out hout hread (qs.take n) qs[n] (qs.drop (n + 1)) gens
    rw [← hsplit, hl] at this
    rw [this, List.getElem?_map, List.getElem?_eq_getElem hn]
    simp only [Option.map_some]
    congr 1
    rcases hf : List.find? _ (qs.take n) with _ | p
    · rfl
    · have hp := List.find?_some hf
      have hmem := List.mem_of_mem_take (List.mem_of_find?_eq_some hf)
      simp only [Bool.and_eq_true, decide_eq_true_eq] at hp
      rw [hsame p hmem qs[n] (List.getElem_mem hn) hp.1]
  · rw [List.getElem?_eq_none (by rw [hlen]; omega), List.getElem?_eq_none (by simp; omega)]

/-- A history with a repeated request and two different trials. -/
example : runAll exSeedWorld [(exTrial, 3), (exTrial2, 4), (exTrial, 3)] (fun _ => none)
    (fun _ => ()) = [.ok 3, .ok 4, .ok 3] :=
  C49_same_request_partial exSeedWorld exSeedWorld_hex
    (fun c seed => .ok (seed.toNat + c.analysisType.length)) (fun _ _ _ => rfl)
    (by intro c s r _; simp [exSeedWorld]) _ (by decide +kernel) _

/-- The third request gets the result of the first. -/
example : (runAll exSeedWorld [(exTrial, 3), (exTrial2, 4), (exTrial, 8)] (fun _ => none)
    (fun _ => ()))[2]? = some (.ok 3) :=
  C49_first_wins exSeedWorld exSeedWorld_hex
    (fun c seed => .ok (seed.toNat + c.analysisType.length)) (fun _ _ _ => rfl)
    (by intro c s r _; simp [exSeedWorld]) [(exTrial, 3), (exTrial2, 4)] (exTrial, 8) [] _

end Verif
