import Verif.Props.CommandLine

/-!
# C83: help, negative numbers as values, and the separator

`C83_command_line` is about the documented form `--key=value`.  Here: the other forms argparse knows for
the parser of experiment_driver.py:212-264.
-/

namespace Verif

open Verif.Spec CommandLine

namespace CommandLine

/-- A minus sign, digits, and possibly a point followed by at least one digit. -/
def NegativeNumber (v : Text) : Prop :=
  ∃ ds : Text, (∀ c ∈ ds, c.isDigit = true) ∧
    ((ds ≠ [] ∧ v = '-' :: ds) ∨
      ∃ fs : Text, fs ≠ [] ∧ (∀ c ∈ fs, c.isDigit = true) ∧ v = '-' :: (ds ++ '.' :: fs))

theorem dropWhile_digits (ds rest : Text) (hds : ∀ c ∈ ds, c.isDigit = true)
    (hr : ∀ c, rest.head? = some c → c.isDigit = false) :
    (ds ++ rest).dropWhile (fun c => c.isDigit) = rest := by
  induction ds with
  | nil =>
    cases rest with
    | nil => rfl
    | cons c rest => simp [hr c rfl]
  | cons d ds ih =>
    rw [List.cons_append, List.dropWhile_cons, if_pos (hds d (by simp))]
    exact ih (fun c hc => hds c (by simp [hc]))

theorem looksNegative_iff (v : Text) : looksNegative v = true ↔ NegativeNumber v := by
  constructor
  · intro h
    unfold looksNegative at h
    split at h
    · rename_i rest
      have hsplit := List.takeWhile_append_dropWhile (p := fun c : Char => c.isDigit) (l := rest)
      have hd : ∀ c ∈ rest.takeWhile (fun c => c.isDigit), c.isDigit = true := by
        intro c hc
        exact List.all_eq_true.1 (List.all_takeWhile (p := fun c : Char => c.isDigit) (l := rest)) c hc
      refine ⟨rest.takeWhile (fun c => c.isDigit), hd, ?_⟩
      simp only at h
      split at h
      · rename_i heq
        rw [heq, List.append_nil] at hsplit
        left
        rw [hsplit]
        refine ⟨?_, rfl⟩
        intro e
        simp [e] at h
      · rename_i ds heq
        right
        rw [Bool.and_eq_true, List.all_eq_true] at h
        refine ⟨ds, ?_, h.2, ?_⟩
        · intro e
          simp [e] at h
        · rw [← heq, hsplit]
      · exact absurd h (by simp)
    · exact absurd h (by simp)
  · rintro ⟨ds, hds, ⟨hne, rfl⟩ | ⟨fs, hne, hfs, rfl⟩⟩
    · have h := dropWhile_digits ds [] hds (by simp)
      rw [List.append_nil] at h
      simp only [looksNegative, h]
      cases ds with
      | nil => exact absurd rfl hne
      | cons _ _ => rfl
    · have h := dropWhile_digits ds ('.' :: fs) hds (by
        intro c hc
        simp only [List.head?_cons, Option.some.injEq] at hc
        subst hc
        decide)
      simp only [looksNegative, h]
      rw [Bool.and_eq_true, List.all_eq_true]
      refine ⟨?_, hfs⟩
      cases fs with
      | nil => exact absurd rfl hne
      | cons _ _ => rfl

theorem splitEq_none : ∀ t : Text, '=' ∉ t → splitEq t = none
  | [], _ => rfl
  | c :: t, h => by
    have h1 : c ≠ '=' := fun e => h (by simp [e])
    rw [splitEq, if_neg h1, splitEq_none t (fun e => h (by simp [e]))]
    rfl

/-- A negative number has no `=` and its second character is no dash and no `h`. -/
theorem negative_second (v : Text) (h : NegativeNumber v) :
    '=' ∉ v ∧ ∃ c w, v = '-' :: c :: w ∧ c ≠ '-' ∧ c ≠ 'h' := by
  have hc : ∀ (c k : Char), c.isDigit = true → k.isDigit = false → c ≠ k := by
    rintro c k h1 h2 rfl
    rw [h1] at h2
    exact absurd h2 (by decide)
  obtain ⟨ds, hds, ⟨hne, rfl⟩ | ⟨fs, -, hfs, rfl⟩⟩ := h
  · refine ⟨?_, ?_⟩
    · intro hm
      rcases List.mem_cons.1 hm with e | e
      · exact absurd e (by decide)
      · exact hc _ '=' (hds _ e) (by decide) rfl
    · cases ds with
      | nil => exact absurd rfl hne
      | cons d ds =>
        exact ⟨d, ds, rfl, hc _ _ (hds d (by simp)) (by decide), hc _ _ (hds d (by simp)) (by decide)⟩
  · refine ⟨?_, ?_⟩
    · intro hm
      rcases List.mem_cons.1 hm with e | e
      · exact absurd e (by decide)
      · rcases List.mem_append.1 e with e | e
        · exact hc _ '=' (hds _ e) (by decide) rfl
        · rcases List.mem_cons.1 e with e | e
          · exact absurd e (by decide)
          · exact hc _ '=' (hfs _ e) (by decide) rfl
    · cases ds with
      | nil => exact ⟨'.', fs, rfl, by decide, by decide⟩
      | cons d ds =>
        exact ⟨d, _, rfl, hc _ _ (hds d (by simp)) (by decide), hc _ _ (hds d (by simp)) (by decide)⟩

theorem classify_negative (v : Text) (h : NegativeNumber v) : classify v = .value := by
  obtain ⟨heq, c, w, rfl, h1, h2⟩ := negative_second v h
  have hopt : optOf ('-' :: c :: w) = none := by
    apply optOf_none
    intro o e
    rw [opt_flag] at e
    simp only [List.cons.injEq] at e
    exact h1 e.2.1
  have hb : ('-' :: c :: w) ≠ beamFlag := by
    intro e
    have : beamFlag = '-' :: '-' :: "use_apache_beam".toList := by decide +kernel
    rw [this] at e
    simp only [List.cons.injEq] at e
    exact h1 e.2.1
  have hh : ('-' :: c :: w) ≠ helpFlag := by
    intro e
    have : helpFlag = '-' :: '-' :: "help".toList := by decide +kernel
    rw [this] at e
    simp only [List.cons.injEq] at e
    exact h1 e.2.1
  have hp : ['-', 'h'].isPrefixOf ('-' :: c :: w) = false := by
    simp [List.isPrefixOf, Ne.symm h2]
  unfold classify
  rw [if_neg (by simp [h1]), if_neg (by simp), hopt]
  simp only [if_neg hb, if_neg hh, hp, splitEq_none _ heq, (looksNegative_iff _).2 h]
  simp

theorem classify_dash : classify ['-'] = .value := by decide +kernel

/-- What else starts with a dash is no value, unless there is a space in it. -/
theorem classify_not_value (v : Text) (h1 : v.head? = some '-') (h2 : v ≠ ['-']) (h3 : ' ' ∉ v)
    (h4 : ¬ NegativeNumber v) : classify v ≠ .value := by
  have h5 : ¬ looksNegative v = true := fun e => h4 ((looksNegative_iff v).1 e)
  unfold classify
  simp only [h1, ne_eq, not_true_eq_false, if_false, if_neg h2, if_neg h3, if_neg h5]
  repeat' split
  all_goals simp

/-- Documented arguments are parsed before what follows them. -/
theorem parseLoop_append (items : List Item) (hi : ∀ i ∈ items, i.Documented) (rest : List Text) :
    ∀ p : Parsed, parseLoop (items.map Item.render ++ rest) p =
      (parseLoop (items.map Item.render) p).bind (parseLoop rest) := by
  induction items with
  | nil => intro p; simp [parseLoop]
  | cons i items ih =>
    intro p
    have ih' := ih (fun j hj => hi j (by simp [hj]))
    rw [List.map_cons, List.cons_append]
    conv_lhs => rw [parseLoop]
    conv_rhs => rw [parseLoop]
    cases i with
    | beam => rw [classify_beam]; exact ih' _
    | setting key value =>
      rcases classify_setting key value (hi _ (by simp)) with ⟨o, -, hc⟩ | ⟨-, hc | hc⟩
      · rw [hc]
        simp only
        rcases p.store o value with _ | q
        · rfl
        · exact ih' q
      · rw [hc]; exact ih' _
      · rw [hc]; exact ih' _

theorem parseLoop_prog (prog : Text) (hprog : prog.head? ≠ some '-') (rest : List Text) (p : Parsed) :
    parseLoop (prog :: rest) p = parseLoop rest { p with extras := p.extras ++ [prog] } := by
  rw [parseLoop, classify_plain prog hprog]

theorem classify_option (o : Opt) : classify ("--".toList ++ o.key) = .option o none := by
  cases o <;> decide +kernel

theorem classify_render (o : Opt) (v : Text) :
    classify (Item.render (.setting o.key v)) = .option o (some v) := by
  have hdoc : Item.Documented (.setting o.key v) := by
    cases o <;> exact ⟨by decide +kernel, by decide +kernel, by decide +kernel⟩
  rcases classify_setting o.key v hdoc with ⟨o', h1, h2⟩ | ⟨h1, -⟩
  · rw [h2, opt_key_inj _ _ h1]
  · exact absurd (by rw [driverKeys_eq]; exact List.mem_map_of_mem (opt_mem o)) h1

/-- Nothing is run if what follows the documented arguments cannot be parsed. -/
theorem mainCall_none (prog : Text) (hprog : prog.head? ≠ some '-') (items : List Item)
    (hi : ∀ i ∈ items, i.Documented) (rest : List Text) (h : ∀ p, parseLoop rest p = none) :
    mainCall (prog :: (items.map Item.render ++ rest)) = none := by
  unfold mainCall parseKnownArgs
  rw [parseLoop_prog prog hprog, parseLoop_append items hi]
  rcases parseLoop (items.map Item.render) _ with _ | q
  · rfl
  · rw [Option.bind_some, h]; rfl

end CommandLine

/-- **C83 (help).** If help is asked for after documented arguments, no experiment is run, whatever
follows. -/
theorem C83_help (prog : Text) (hprog : prog.head? ≠ some '-') (items : List Item)
    (hi : ∀ i ∈ items, i.Documented) (h : Text) (hh : h = "--help".toList ∨ h = "-h".toList)
    (post : List Text) :
    mainCall (prog :: (items.map Item.render ++ h :: post)) = none := by
  apply mainCall_none prog hprog items hi
  intro p
  have hc : classify h = .help := by
    rcases hh with rfl | rfl <;> decide +kernel
  rw [parseLoop, hc]

/-- **C83 (values with a dash).** A negative number or a lone dash in the next argument is the value of
an option, just as after `=`. -/
theorem C83_negative_value (prog : Text) (hprog : prog.head? ≠ some '-') (items : List Item)
    (hi : ∀ i ∈ items, i.Documented) (o : Opt) (v : Text) (hv : NegativeNumber v ∨ v = "-".toList)
    (post : List Text) :
    mainCall (prog :: (items.map Item.render ++ ("--".toList ++ o.key) :: v :: post)) =
      mainCall (prog :: (items.map Item.render ++ Item.render (.setting o.key v) :: post)) := by
  have hval : classify v = .value := by
    rcases hv with hv | rfl
    · exact classify_negative v hv
    · decide +kernel
  have hl : ∀ p, parseLoop (("--".toList ++ o.key) :: v :: post) p =
      parseLoop (Item.render (.setting o.key v) :: post) p := by
    intro p
    conv_lhs => rw [parseLoop, classify_option]
    conv_rhs => rw [parseLoop, classify_render]
    simp only [hval, if_true]
  unfold mainCall parseKnownArgs
  rw [parseLoop_prog prog hprog, parseLoop_prog prog hprog, parseLoop_append items hi,
    parseLoop_append items hi]
  rcases parseLoop (items.map Item.render) _ with _ | q
  · rfl
  · rw [Option.bind_some, Option.bind_some, hl]

/-- **C83 (values with a dash, refused).** Any other next argument that starts with a dash and has no
space is refused: nothing is run.  So is an option without a next argument. -/
theorem C83_dash_value_refused (prog : Text) (hprog : prog.head? ≠ some '-') (items : List Item)
    (hi : ∀ i ∈ items, i.Documented) (o : Opt) :
    (∀ (v : Text) (post : List Text), v.head? = some '-' → v ≠ "-".toList → ' ' ∉ v →
      ¬ NegativeNumber v →
      mainCall (prog :: (items.map Item.render ++ ("--".toList ++ o.key) :: v :: post)) = none) ∧
    mainCall (prog :: (items.map Item.render ++ ["--".toList ++ o.key])) = none := by
  refine ⟨fun v post h1 h2 h3 h4 => ?_, ?_⟩
  · apply mainCall_none prog hprog items hi
    intro p
    rw [parseLoop, classify_option]
    simp only
    rw [if_neg (classify_not_value v h1 h2 h3 h4)]
  · apply mainCall_none prog hprog items hi
    intro p
    rw [parseLoop, classify_option]

/-- **C83 (separator).** A second separator ends the options: whatever follows it is passed on to Beam
and changes no argument of the driver. -/
theorem C83_separator (prog : Text) (hprog : prog.head? ≠ some '-') (items : List Item)
    (hi : ∀ i ∈ items, i.Documented) (post : List Text) (c : Call)
    (hc : mainCall (prog :: items.map Item.render) = some c) :
    ∃ c', mainCall (prog :: (items.map Item.render ++ "--".toList :: post)) = some c' ∧
      c'.dataDesignDir = c.dataDesignDir ∧ c'.experimentalDesign = c.experimentalDesign ∧
      c'.outputFile = c.outputFile ∧ c'.intermediateDir = c.intermediateDir ∧ c'.seed = c.seed ∧
      c'.cores = c.cores ∧ c'.analysisType = c.analysisType ∧ c'.useBeam = c.useBeam ∧
      ∃ own last : List Text, c.pipelineArgs = own ++ last ∧ last.length = 2 ∧
        c'.pipelineArgs = own ++ "--".toList :: post ++ last := by
  have hs : classify "--".toList = .separator := by decide +kernel
  unfold mainCall parseKnownArgs at hc ⊢
  rw [parseLoop_prog prog hprog] at hc ⊢
  rw [parseLoop_append items hi]
  rcases hq : parseLoop (items.map Item.render) _ with _ | q
  · rw [hq] at hc; exact absurd hc (by simp)
  · rw [hq] at hc
    rw [Option.bind_some] at hc ⊢
    rw [parseLoop, hs]
    simp only [Option.bind_some] at hc ⊢
    by_cases hr : (Opt.all.all fun o => !o.required || (q.values o).isSome) = true
    · rw [if_pos hr] at hc ⊢
      simp only [Option.map_some, Option.some.injEq] at hc ⊢
      subst hc
      exact ⟨_, rfl, rfl, rfl, rfl, rfl, rfl, rfl, rfl, rfl, q.extras, _, rfl, rfl, rfl⟩
    · rw [if_neg hr] at hc
      exact absurd hc (by simp)

/-- **C83 (flags take no value).** `--use_apache_beam=…` and `--help=…` are refused or end in the help:
nothing is run, whatever follows. -/
theorem C83_flag_value_refused (prog : Text) (hprog : prog.head? ≠ some '-') (items : List Item)
    (hi : ∀ i ∈ items, i.Documented) (f : Text)
    (hf : f = "--use_apache_beam".toList ∨ f = "--help".toList) (v : Text) (post : List Text) :
    mainCall (prog :: (items.map Item.render ++ (f ++ '=' :: v) :: post)) = none := by
  apply mainCall_none prog hprog items hi
  intro p
  have hmem : ∀ t : Text, '=' ∉ t → f ++ '=' :: v ≠ t := by
    rintro t ht rfl
    exact ht (by simp)
  have hopt : optOf (f ++ '=' :: v) = none := by
    apply optOf_none
    intro o
    apply hmem
    cases o <;> decide +kernel
  have hsplit : splitEq (f ++ '=' :: v) = some (f, v) :=
    splitEq_append f v (by rcases hf with rfl | rfl <;> decide +kernel)
  have hhead : (f ++ '=' :: v).head? = some '-' := by
    rcases hf with rfl | rfl <;> rfl
  have hown : optOf f = none := by rcases hf with rfl | rfl <;> decide +kernel
  have hc : classify (f ++ '=' :: v) = if f = beamFlag then .beam (some v) else .help := by
    unfold classify
    rw [if_neg (hmem _ (by decide +kernel)), if_neg (by rw [hhead]; simp), hopt]
    simp only [if_neg (hmem beamFlag (by decide +kernel)), if_neg (hmem helpFlag (by decide +kernel)),
      if_neg (hmem ['-'] (by decide +kernel)), hsplit, hown]
    rcases hf with rfl | rfl
    · rw [if_pos (by decide +kernel), if_pos (by decide +kernel)]
    · rw [if_neg (by decide +kernel), if_pos (by decide +kernel), if_neg (by decide +kernel)]
  rw [parseLoop, hc]
  rcases hf with rfl | rfl
  · rw [if_pos (by decide +kernel)]
  · rw [if_neg (by decide +kernel)]

/-- The seed of the documented command line, negative and in an argument of its own. -/
example : NegativeNumber "-5".toList ∧ NegativeNumber "-.5".toList ∧ ¬ NegativeNumber "-5.".toList ∧
    ¬ NegativeNumber "-".toList := by
  simp only [← looksNegative_iff]
  decide +kernel

example : (mainCall ("driver.py".toList :: (exItems.map Item.render ++
      ["--seed".toList, "-5".toList, "--output_file".toList, "-".toList, "--".toList,
        "--cores=7".toList]))).map
      (fun c => (c.outputFile, c.seed, c.cores)) = some ("-".toList, -5, 1) := by
  decide +kernel

example : "-5.".toList.head? = some '-' ∧ "-5.".toList ≠ "-".toList ∧ ' ' ∉ "-5.".toList ∧
    "driver.py".toList.head? ≠ some '-' ∧
    (mainCall ("driver.py".toList :: exItems.map Item.render)).isSome := by
  decide +kernel

end Verif
