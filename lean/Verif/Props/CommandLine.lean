import Verif.Lemmas.Storage
import Verif.Model.CommandLine
import Verif.Spec.CommandLine

/-!
# C83: the command line of the driver
-/

namespace Verif

open Verif.Spec CommandLine

namespace CommandLine

/-- The key of an option. -/
def Opt.key : Opt → Text
  | .dataDesignDir => "data_design_dir".toList
  | .experimentalDesign => "experimental_design".toList
  | .outputFile => "output_file".toList
  | .intermediatesDir => "intermediates_dir".toList
  | .seed => "seed".toList
  | .cores => "cores".toList
  | .analysisType => "analysis_type".toList

theorem opt_flag (o : Opt) : o.flag = '-' :: '-' :: o.key := by cases o <;> rfl

theorem opt_mem (o : Opt) : o ∈ Opt.all := by cases o <;> decide

theorem opt_key_inj : ∀ o o' : Opt, o.key = o'.key → o = o' := by
  intro o o'
  cases o <;> cases o' <;> decide +kernel

theorem opt_key_eq (o : Opt) : '=' ∉ o.key := by cases o <;> decide +kernel

theorem driverKeys_eq : driverKeys = Opt.all.map Opt.key := rfl

theorem optOf_flag (o : Opt) : optOf o.flag = some o := by cases o <;> decide +kernel

theorem optOf_some {t : Text} {o : Opt} (h : optOf t = some o) : t = o.flag := by
  unfold optOf at h
  have := List.find?_some h
  exact (beq_iff_eq.1 this).symm

theorem optOf_none {t : Text} (h : ∀ o : Opt, t ≠ o.flag) : optOf t = none := by
  rcases hh : optOf t with _ | o
  · rfl
  · exact absurd (optOf_some hh) (h o)

theorem splitEq_append : ∀ (a b : Text), '=' ∉ a → splitEq (a ++ '=' :: b) = some (a, b)
  | [], b, _ => by simp [splitEq]
  | c :: a, b, h => by
    have hc : c ≠ '=' := fun e => h (by simp [e])
    have ha : '=' ∉ a := fun e => h (by simp [e])
    simp only [List.cons_append, splitEq, hc, if_false, splitEq_append a b ha, Option.map_some]

/-- A setting is an option of the driver if its key is, otherwise it is left over. -/
theorem classify_setting (key value : Text) (h : Item.Documented (.setting key value)) :
    (∃ o : Opt, o.key = key ∧
      classify (Item.render (.setting key value)) = .option o (some value)) ∨
    (key ∉ driverKeys ∧ (classify (Item.render (.setting key value)) = .value ∨
      classify (Item.render (.setting key value)) = .unknown)) := by
  obtain ⟨h1, h2, h3⟩ := h
  have hr : Item.render (.setting key value) = '-' :: '-' :: (key ++ '=' :: value) := rfl
  have heq : '=' ∈ Item.render (.setting key value) := by rw [hr]; simp
  have e1 : Item.render (.setting key value) ≠ ['-', '-'] := by rw [hr]; simp
  have e2 : ¬ ((Item.render (.setting key value)).head? ≠ some '-') := by rw [hr]; simp
  have e3 : optOf (Item.render (.setting key value)) = none := by
    apply optOf_none
    intro o e
    rw [e, opt_flag] at heq
    have := opt_key_eq o
    simp [this] at heq
  have e4 : Item.render (.setting key value) ≠ beamFlag := by
    intro e; rw [e] at heq; revert heq; decide +kernel
  have e5 : Item.render (.setting key value) ≠ helpFlag := by
    intro e; rw [e] at heq; revert heq; decide +kernel
  have e6 : Item.render (.setting key value) ≠ ['-'] := by rw [hr]; simp
  have e7 : splitEq (Item.render (.setting key value)) = some ('-' :: '-' :: key, value) := by
    have := splitEq_append ('-' :: '-' :: key) value (by
      intro e
      simp only [List.mem_cons] at e
      rcases e with e | e | e
      · revert e; decide
      · revert e; decide
      · exact h1 e)
    exact this
  have e8 : ¬ (['-', 'h'].isPrefixOf (Item.render (.setting key value)) = true) := by
    rw [hr]; simp [List.isPrefixOf]
  unfold classify
  rw [if_neg e1, if_neg e2, e3]
  simp only [if_neg e4, if_neg e5, if_neg e6, e7, if_neg e8]
  rcases hk : optOf ('-' :: '-' :: key) with _ | o
  · right
    constructor
    · rw [driverKeys_eq]
      intro hm
      obtain ⟨o, -, ho⟩ := List.mem_map.1 hm
      have := optOf_flag o
      rw [opt_flag, ho, hk] at this
      exact absurd this (by simp)
    · have e9 : ¬ ('-' :: '-' :: key = beamFlag) := by
        intro e
        apply h2
        have : beamFlag = '-' :: '-' :: "use_apache_beam".toList := rfl
        rw [this] at e
        simpa using e
      have e10 : ¬ ('-' :: '-' :: key = helpFlag) := by
        intro e
        apply h3
        have : helpFlag = '-' :: '-' :: "help".toList := rfl
        rw [this] at e
        simpa using e
      simp only [if_neg e9, if_neg e10]
      split
      · exact .inl rfl
      · split
        · exact .inl rfl
        · exact .inr rfl
  · left
    have := optOf_some hk
    rw [opt_flag] at this
    exact ⟨o, by simpa using this.symm, rfl⟩

theorem classify_beam : classify (Item.render .beam) = .beam none := by decide +kernel

/-- What is parsed from a list of documented arguments. -/
theorem parseLoop_items (items : List Item) (hi : ∀ i ∈ items, i.Documented)
    (hint : ∀ o : Opt, o.isInt = true → ∀ v, Item.setting o.key v ∈ items → (parseInt v).isSome) :
    ∀ p : Parsed, parseLoop (items.map Item.render) p = some
      { values := fun o => match lastValue o.key items with
          | some v => some v
          | none => p.values o
        beam := p.beam || decide (Item.beam ∈ items)
        extras := p.extras ++ (items.filter Item.forBeam).map Item.render } := by
  induction items with
  | nil => intro p; simp [parseLoop, lastValue]
  | cons i items ih =>
    intro p
    have ih' := ih (fun j hj => hi j (by simp [hj])) (fun o ho v hv => hint o ho v (by simp [hv]))
    rw [List.map_cons, parseLoop]
    cases i with
    | beam =>
      rw [classify_beam]
      simp only [ih', lastValue, Item.forBeam, List.filter_cons]
      simp
    | setting key value =>
      rcases classify_setting key value (hi _ (by simp)) with ⟨o, ho, hc⟩ | ⟨hk, hc⟩
      · rw [hc]
        have hfor : Item.forBeam (.setting key value) = false := by
          simp only [Item.forBeam, driverKeys_eq]
          rw [← ho]
          simp [opt_mem]
        have hst : p.store o value = some
            { p with values := fun o' => if o' = o then some value else p.values o' } := by
          unfold Parsed.store
          rw [if_neg]
          rintro ⟨h1, h2⟩
          have := hint o h1 value (by rw [ho]; simp)
          rw [h2] at this
          simp at this
        simp only [hst, Option.bind_some, ih', List.filter_cons, hfor]
        congr 1
        simp only [Parsed.mk.injEq]
        refine ⟨?_, by simp, by simp⟩
        funext o'
        simp only [lastValue]
        rcases lastValue o'.key items with _ | w
        · by_cases h : o' = o
          · subst h
            simp [ho]
          · have : key ≠ o'.key := by
              rw [← ho]; intro e; exact h (opt_key_inj _ _ e.symm)
            simp [h, this]
        · rfl
      · have hfor : Item.forBeam (.setting key value) = true := by
          simp only [Item.forBeam]
          simpa using hk
        have hne : ∀ o : Opt, key ≠ o.key := by
          intro o e
          apply hk
          rw [driverKeys_eq, e]
          exact List.mem_map_of_mem (opt_mem o)
        rcases hc with hc | hc <;> rw [hc] <;> simp only [ih']
        all_goals
          congr 1
          simp only [Parsed.mk.injEq, List.filter_cons, hfor, if_true, List.map_cons, List.append_assoc,
            List.singleton_append, and_true]
          refine ⟨?_, by simp⟩
          funext o
          simp only [lastValue]
          rcases lastValue o.key items with _ | w
          · simp [hne o]
          · rfl

/-- A text that does not look like an option, such as the name of the program. -/
theorem classify_plain (t : Text) (h : t.head? ≠ some '-') : classify t = .value := by
  unfold classify
  rw [if_neg, if_pos h]
  rintro rfl
  simp at h

/-- What one argument says about an option of Beam. -/
def ownOption (name arg : Text) : Option Text :=
  (splitEq arg).bind (fun nv => if nv.1 = '-' :: '-' :: name then some nv.2 else none)

theorem pipelineOption_cons (name arg : Text) (args : List Text) :
    pipelineOption name (arg :: args) = (pipelineOption name args).or (ownOption name arg) := by
  unfold pipelineOption ownOption
  rw [List.reverse_cons, List.filterMap_append, List.findSome?_append]
  congr 1
  rcases h : splitEq arg with _ | nv
  · simp [h]
  · simp [h]

theorem splitEq_head : ∀ (t n v : Text), splitEq t = some (n, v) → n.head? = some '-' →
    t.head? = some '-'
  | [], n, v, h, _ => by simp [splitEq] at h
  | c :: t, n, v, h, hn => by
    rw [splitEq] at h
    by_cases hc : c = '='
    · rw [if_pos hc] at h
      simp only [Option.some.injEq, Prod.mk.injEq] at h
      rw [← h.1] at hn
      simp at hn
    · rw [if_neg hc] at h
      obtain ⟨ab, -, h2⟩ := Option.map_eq_some_iff.1 h
      simp only [Prod.mk.injEq] at h2
      rw [← h2.1] at hn
      simpa using hn

theorem ownOption_plain (name t : Text) (h : t.head? ≠ some '-') : ownOption name t = none := by
  unfold ownOption
  rcases hs : splitEq t with _ | nv
  · rfl
  · simp only [Option.bind_some]
    rw [if_neg]
    intro e
    exact h (splitEq_head t nv.1 nv.2 hs (by rw [e]; rfl))

theorem ownOption_setting (name key value : Text) (h : '=' ∉ key) :
    ownOption name (Item.render (.setting key value)) = if key = name then some value else none := by
  have : splitEq (Item.render (.setting key value)) = some ('-' :: '-' :: key, value) :=
    splitEq_append ('-' :: '-' :: key) value (by
      intro e
      simp only [List.mem_cons] at e
      rcases e with e | e | e
      · revert e; decide
      · revert e; decide
      · exact h e)
  unfold ownOption
  rw [this]
  simp

theorem pipelineOption_items (name : Text) (hname : name ∉ driverKeys) (tail : List Text) :
    ∀ items : List Item, (∀ i ∈ items, i.Documented) →
    pipelineOption name ((items.filter Item.forBeam).map Item.render ++ tail)
      = (pipelineOption name tail).or (lastValue name items)
  | [], _ => by simp [lastValue]
  | .beam :: items, hi => by
    have ih := pipelineOption_items name hname tail items (fun j hj => hi j (by simp [hj]))
    simpa [List.filter_cons, Item.forBeam, lastValue] using ih
  | .setting k v :: items, hi => by
    have ih := pipelineOption_items name hname tail items (fun j hj => hi j (by simp [hj]))
    have hk : '=' ∉ k := by
      have : Item.Documented (.setting k v) := hi _ (by simp)
      exact this.1
    by_cases hf : Item.forBeam (.setting k v) = true
    · rw [List.filter_cons, if_pos hf, List.map_cons, List.cons_append, pipelineOption_cons, ih,
        ownOption_setting _ _ _ hk, lastValue]
      rcases pipelineOption name tail with _ | w
      · rcases lastValue name items with _ | w <;> simp
      · simp
    · rw [List.filter_cons, if_neg hf, ih, lastValue]
      have hne : k ≠ name := by
        rintro rfl
        apply hf
        simpa [Item.forBeam] using hname
      rcases lastValue name items with _ | w <;> simp [hne]

/-- What is parsed from the documented form. -/
theorem parseKnown_items (prog : Text) (hprog : prog.head? ≠ some '-') (items : List Item)
    (hi : ∀ i ∈ items, i.Documented)
    (hint : ∀ o : Opt, o.isInt = true → ∀ v, Item.setting o.key v ∈ items → (parseInt v).isSome)
    (hreq : ∀ o : Opt, o.required = true → (lastValue o.key items).isSome) :
    ∃ p, parseKnownArgs (prog :: items.map Item.render) = some p ∧
      (∀ o, p.values o = lastValue o.key items) ∧ p.beam = decide (Item.beam ∈ items) ∧
      p.extras = prog :: (items.filter Item.forBeam).map Item.render := by
  have h0 : parseLoop (prog :: items.map Item.render) ⟨fun _ => none, false, []⟩
      = parseLoop (items.map Item.render) ⟨fun _ => none, false, [prog]⟩ := by
    rw [parseLoop, classify_plain prog hprog]
    rfl
  have h1 := h0.trans (parseLoop_items items hi hint _)
  unfold parseKnownArgs
  rw [h1, Option.bind_some]
  have hval : ∀ o : Opt, (match lastValue o.key items with
      | some v => some v
      | none => (none : Option Text)) = lastValue o.key items := by
    intro o
    rcases lastValue o.key items <;> rfl
  simp only [hval]
  rw [if_pos]
  · exact ⟨_, rfl, fun o => rfl, by simp, rfl⟩
  · rw [List.all_eq_true]
    intro o _
    rcases ho : o.required with _ | _
    · rfl
    · simpa using hreq o ho

end CommandLine

/-- **C83 (command line).** For a command line in the documented form, in any order, the driver is
called with the last value of every option, one core and seed 1 unless said otherwise; all other arguments
are passed on to Beam in their order, followed by the directory of intermediate results as temporary
location and the number of cores.  Files are looked for in the cloud if the last runner named is
Dataflow. -/
theorem C83_command_line (prog : Text) (hprog : prog.head? ≠ some '-') (items : List Item)
    (hi : ∀ i ∈ items, i.Documented)
    (hseed : ∀ v, Item.setting "seed".toList v ∈ items → (parseInt v).isSome)
    (hcores : ∀ v, Item.setting "cores".toList v ∈ items → (parseInt v).isSome)
    (d e o t : Text) (hd : lastValue "data_design_dir".toList items = some d)
    (he : lastValue "experimental_design".toList items = some e)
    (ho : lastValue "output_file".toList items = some o)
    (ht : lastValue "intermediates_dir".toList items = some t) :
    ∃ c, mainCall (prog :: items.map Item.render) = some c ∧ c.dataDesignDir = d ∧
      c.experimentalDesign = e ∧ c.outputFile = o ∧ c.intermediateDir = t ∧
      c.seed = ((lastValue "seed".toList items).bind parseInt).getD 1 ∧
      c.cores = ((lastValue "cores".toList items).bind parseInt).getD 1 ∧
      c.analysisType = (lastValue "analysis_type".toList items).getD [] ∧
      (c.useBeam = true ↔ Item.beam ∈ items) ∧
      c.pipelineArgs = prog :: (items.filter Item.forBeam).map Item.render ++
        [Item.render (.setting "temp_location".toList t),
          Item.render (.setting "direct_num_workers".toList (showInt c.cores))] ∧
      c.wrapper = wrapperFor (String.ofList ((lastValue "runner".toList items).getD [])) := by
  obtain ⟨p, h1, h2, h3, h4⟩ := parseKnown_items prog hprog items hi (by
    intro op hop v hv
    cases op <;> first | exact hseed v hv | exact hcores v hv | exact absurd hop (by simp [Opt.isInt]))
    (by
      intro op hop
      cases op
      · exact Option.isSome_iff_exists.2 ⟨d, hd⟩
      · exact Option.isSome_iff_exists.2 ⟨e, he⟩
      · exact Option.isSome_iff_exists.2 ⟨o, ho⟩
      · exact Option.isSome_iff_exists.2 ⟨t, ht⟩
      all_goals exact absurd hop (by simp [Opt.required]))
  have hd' : p.values .dataDesignDir = some d := (h2 _).trans hd
  have he' : p.values .experimentalDesign = some e := (h2 _).trans he
  have ho' : p.values .outputFile = some o := (h2 _).trans ho
  have ht' : p.values .intermediatesDir = some t := (h2 _).trans ht
  have hs' : p.values .seed = lastValue "seed".toList items := h2 _
  have hc' : p.values .cores = lastValue "cores".toList items := h2 _
  have ha' : p.values .analysisType = lastValue "analysis_type".toList items := h2 _
  have hargs : p.call.pipelineArgs = prog :: (items.filter Item.forBeam).map Item.render ++
        [Item.render (.setting "temp_location".toList t),
          Item.render (.setting "direct_num_workers".toList (showInt p.call.cores))] := by
    simp only [Parsed.call, h4, ht', Option.getD_some]
    rfl
  refine ⟨p.call, ?_, ?_, ?_, ?_, ?_, ?_, ?_, ?_, ?_, hargs, ?_⟩
  · unfold mainCall; rw [h1]; rfl
  · simp only [Parsed.call, hd', Option.getD_some]
  · simp only [Parsed.call, he', Option.getD_some]
  · simp only [Parsed.call, ho', Option.getD_some]
  · simp only [Parsed.call, ht', Option.getD_some]
  · simp only [Parsed.call, hs']
  · simp only [Parsed.call, hc']
  · simp only [Parsed.call, ha']
  · simp only [Parsed.call, h3, decide_eq_true_eq]
  · have hw : p.call.wrapper = wrapperFor (String.ofList
        ((pipelineOption "runner".toList p.call.pipelineArgs).getD [])) := rfl
    have n1 : '=' ∉ "temp_location".toList := by decide +kernel
    have n2 : '=' ∉ "direct_num_workers".toList := by decide +kernel
    have n3 : "temp_location".toList ≠ "runner".toList := by decide +kernel
    have n4 : "direct_num_workers".toList ≠ "runner".toList := by decide +kernel
    have n5 : "runner".toList ∉ driverKeys := by decide +kernel
    rw [hw, hargs, List.cons_append, pipelineOption_cons, ownOption_plain _ _ hprog,
      pipelineOption_items _ n5 _ _ hi, pipelineOption_cons, pipelineOption_cons,
      ownOption_setting _ _ _ n1, ownOption_setting _ _ _ n2, if_neg n3, if_neg n4]
    simp [pipelineOption]

namespace CommandLine

/-- A value that is no integer ends the program. -/
theorem parseLoop_bad (o : Opt) (hint : o.isInt = true) (v : Text) (hv : parseInt v = none) :
    ∀ (items : List Item), (∀ i ∈ items, i.Documented) → Item.setting o.key v ∈ items →
    ∀ p : Parsed, parseLoop (items.map Item.render) p = none
  | [], _, hm, _ => by simp at hm
  | i :: items, hi, hm, p => by
    have ih := fun hm' => parseLoop_bad o hint v hv items (fun j hj => hi j (by simp [hj])) hm'
    rw [List.map_cons, parseLoop]
    cases i with
    | beam =>
      rw [classify_beam]
      exact ih (by simpa using hm) _
    | setting key value =>
      rcases classify_setting key value (hi _ (by simp)) with ⟨o', ho', hc⟩ | ⟨hk, hc⟩
      · rw [hc]
        rcases List.mem_cons.1 hm with h | h
        · simp only [Item.setting.injEq] at h
          have : o' = o := opt_key_inj _ _ (by rw [ho', h.1])
          subst this
          simp only [Parsed.store, ← h.2, hint, hv]
          simp
        · simp only
          rcases p.store o' value with _ | q
          · rfl
          · exact ih h q
      · have h : Item.setting o.key v ∈ items := by
          rcases List.mem_cons.1 hm with h | h
          · simp only [Item.setting.injEq] at h
            exact absurd (by rw [driverKeys_eq, ← h.1]; exact List.mem_map_of_mem (opt_mem o)) hk
          · exact h
        rcases hc with hc | hc <;> rw [hc] <;> exact ih h _

end CommandLine

/-- C83: without one of the four required options, or with a seed or a number of cores that is no
integer, nothing is run. -/
theorem C83_refused_command_line (prog : Text) (hprog : prog.head? ≠ some '-') (items : List Item)
    (hi : ∀ i ∈ items, i.Documented)
    (hbad : (∃ k ∈ ["data_design_dir".toList, "experimental_design".toList, "output_file".toList,
        "intermediates_dir".toList], lastValue k items = none) ∨
      (∃ k ∈ ["seed".toList, "cores".toList], ∃ v, Item.setting k v ∈ items ∧ parseInt v = none)) :
    mainCall (prog :: items.map Item.render) = none := by
  have h0 : parseLoop (prog :: items.map Item.render) ⟨fun _ => none, false, []⟩
      = parseLoop (items.map Item.render) ⟨fun _ => none, false, [prog]⟩ := by
    rw [parseLoop, classify_plain prog hprog]
    rfl
  have hgoal : parseKnownArgs (prog :: items.map Item.render) = none := by
    unfold parseKnownArgs
    rw [h0]
    by_cases hall : ∀ o : Opt, o.isInt = true → ∀ v, Item.setting o.key v ∈ items → (parseInt v).isSome
    · rw [parseLoop_items items hi hall, Option.bind_some, if_neg]
      rcases hbad with ⟨k, hk, hl⟩ | ⟨k, hk, v, hv, hp⟩
      · have : ∃ o : Opt, o.required = true ∧ o.key = k := by
          simp only [List.mem_cons, List.not_mem_nil, or_false] at hk
          rcases hk with rfl | rfl | rfl | rfl
          · exact ⟨.dataDesignDir, rfl, rfl⟩
          · exact ⟨.experimentalDesign, rfl, rfl⟩
          · exact ⟨.outputFile, rfl, rfl⟩
          · exact ⟨.intermediatesDir, rfl, rfl⟩
        obtain ⟨o, h1, h2⟩ := this
        intro h
        have := (List.all_eq_true.1 h) o (opt_mem o)
        simp only [h1, h2, hl] at this
        simp at this
      · exfalso
        simp only [List.mem_cons, List.not_mem_nil, or_false] at hk
        rcases hk with rfl | rfl
        · have := hall .seed rfl v hv
          rw [hp] at this; simp at this
        · have := hall .cores rfl v hv
          rw [hp] at this; simp at this
    · push Not at hall
      obtain ⟨o, h1, v, h2, h3⟩ := hall
      rw [parseLoop_bad o h1 v (by simpa using h3) items hi h2]
      rfl
  unfold mainCall
  rw [hgoal]
  rfl

/-- C83: whatever else is given, Beam's temporary location is the directory of the intermediate results
and its number of workers that of the cores. -/
theorem C83_temp_location (argv : List Text) (c : Call) (h : mainCall argv = some c) :
    pipelineOption "temp_location".toList c.pipelineArgs = some c.intermediateDir ∧
    pipelineOption "direct_num_workers".toList c.pipelineArgs = some (showInt c.cores) := by
  unfold mainCall at h
  obtain ⟨p, -, rfl⟩ := Option.map_eq_some_iff.1 h
  have hargs : p.call.pipelineArgs = p.extras ++
      [Item.render (.setting "temp_location".toList p.call.intermediateDir),
        Item.render (.setting "direct_num_workers".toList (showInt p.call.cores))] := rfl
  have n1 : '=' ∉ "temp_location".toList := by decide +kernel
  have n2 : '=' ∉ "direct_num_workers".toList := by decide +kernel
  have n3 : "temp_location".toList ≠ "direct_num_workers".toList := by decide +kernel
  have key : ∀ (name : Text) (a b : Text) (w : Text),
      (ownOption name b).or (ownOption name a) = some w → ∀ l : List Text,
      pipelineOption name (l ++ [a, b]) = some w := by
    intro name a b w hw l
    induction l with
    | nil =>
      rw [List.nil_append, pipelineOption_cons, pipelineOption_cons]
      simpa [pipelineOption] using hw
    | cons x l ih => rw [List.cons_append, pipelineOption_cons, ih]; rfl
  rw [hargs]
  constructor
  · apply key
    rw [ownOption_setting _ _ _ n1, ownOption_setting _ _ _ n2, if_neg n3.symm, if_pos rfl]
    rfl
  · apply key
    rw [ownOption_setting _ _ _ n2, if_pos rfl]
    rfl

/-- C83: the value of an option may also be the next argument. -/
theorem C83_separate_value (pre post : List Text) (hpre : "--".toList ∉ pre) (o : Opt) (v : Text)
    (hv : v.head? ≠ some '-') :
    mainCall (pre ++ ("--".toList ++ o.key) :: v :: post) =
      mainCall (pre ++ Item.render (.setting o.key v) :: post) := by
  have hdoc : Item.Documented (.setting o.key v) := by
    cases o <;> exact ⟨by decide +kernel, by decide +kernel, by decide +kernel⟩
  have hset : classify (Item.render (.setting o.key v)) = .option o (some v) := by
    rcases classify_setting o.key v hdoc with ⟨o', h1, h2⟩ | ⟨h1, -⟩
    · rw [h2, opt_key_inj _ _ h1]
    · exact absurd (by rw [driverKeys_eq]; exact List.mem_map_of_mem (opt_mem o)) h1
  have hopt : classify ("--".toList ++ o.key) = .option o none := by
    cases o <;> decide +kernel
  have hval : classify v = .value := classify_plain v hv
  have hl : ∀ p, parseLoop (("--".toList ++ o.key) :: v :: post) p =
      (p.store o v).bind (parseLoop post) := by
    intro p
    rw [parseLoop, hopt]
    simp only [hval, if_true]
  have hr : ∀ p, parseLoop (Item.render (.setting o.key v) :: post) p =
      (p.store o v).bind (parseLoop post) := by
    intro p
    rw [parseLoop, hset]
  suffices h : ∀ (n : Nat) (pre : List Text), pre.length ≤ n → "--".toList ∉ pre → ∀ p : Parsed,
      parseLoop (pre ++ ("--".toList ++ o.key) :: v :: post) p =
        parseLoop (pre ++ Item.render (.setting o.key v) :: post) p by
    unfold mainCall parseKnownArgs
    rw [h pre.length pre le_rfl hpre]
  intro n
  induction n with
  | zero =>
    intro pre hn _ p
    have : pre = [] := List.eq_nil_of_length_eq_zero (by omega)
    subst this
    rw [List.nil_append, List.nil_append, hl, hr]
  | succ n ih =>
    intro pre hn hsep p
    cases pre with
    | nil =>
      rw [List.nil_append, List.nil_append, hl, hr]
    | cons a pre =>
      have hsep' : "--".toList ∉ pre := fun e => hsep (List.mem_cons_of_mem _ e)
      have ih' := ih pre (by simpa using hn) hsep'
      rw [List.cons_append, List.cons_append]
      conv_lhs => rw [parseLoop]
      conv_rhs => rw [parseLoop]
      rcases hc : classify a with ⟨o', _ | w⟩ | ⟨_ | w⟩ | _ | _ | _ | _
      · cases pre with
        | nil => simp only [List.nil_append, hopt, hset]; rfl
        | cons b pre =>
          have ih2 := ih pre (by simp only [List.length_cons] at hn; omega)
            (fun e => hsep' (List.mem_cons_of_mem _ e))
          simp only [List.cons_append]
          split
          · rcases p.store o' b with _ | q
            · rfl
            · exact ih2 q
          · rfl
      · simp only
        rcases p.store o' w with _ | q
        · rfl
        · exact ih' q
      · exact ih' _
      · rfl
      · rfl
      · exfalso
        apply hsep
        have : a = ['-', '-'] := by
          unfold classify at hc
          by_contra hne
          rw [if_neg hne] at hc
          revert hc
          repeat' split
          all_goals simp
        rw [this]
        simp
      · exact ih' _
      · exact ih' _

/-- The documented command line for one core, with a misspelt option. -/
def exItems : List Item :=
  [.setting "seed".toList "7".toList, .setting "data_design_dir".toList "data".toList,
    .setting "experimental_design".toList "design.py".toList, .setting "output_file".toList "a=b".toList,
    .setting "core".toList "4".toList, .setting "intermediates_dir".toList "tmp".toList,
    .setting "runner".toList "dataflow".toList, .setting "seed".toList "-8".toList, .beam]

example : (∀ i ∈ exItems, i.Documented) ∧ "driver.py".toList.head? ≠ some '-' ∧
    lastValue "data_design_dir".toList exItems = some "data".toList ∧
    lastValue "cores".toList exItems = none ∧
    lastValue "seed".toList exItems = some "-8".toList := by
  refine ⟨?_, by decide +kernel, by decide +kernel, by decide +kernel, by decide +kernel⟩
  intro i hi
  simp only [exItems, List.mem_cons, List.not_mem_nil, or_false] at hi
  rcases hi with rfl | rfl | rfl | rfl | rfl | rfl | rfl | rfl | rfl
  all_goals first
    | exact ⟨by decide +kernel, by decide +kernel, by decide +kernel⟩
    | trivial


/-- The option `--core` is silently passed on to Beam: one core is used. -/
example : (mainCall ("driver.py".toList :: exItems.map Item.render)).map
      (fun c => (c.dataDesignDir, c.outputFile, c.seed, c.cores, c.useBeam)) =
    some ("data".toList, "a=b".toList, -8, 1, true) := by
  decide +kernel

example : (exItems.filter Item.forBeam).map Item.render = ["--core=4".toList, "--runner=dataflow".toList] ∧
    lastValue "runner".toList exItems = some "dataflow".toList := by
  decide +kernel

/-- A number of cores that is no integer, and a missing output file. -/
example : mainCall ["driver.py".toList, "--cores=two".toList] = none ∧
    mainCall ["driver.py".toList, "--data_design_dir=d".toList, "--experimental_design=e".toList,
      "--intermediates_dir=t".toList] = none := by
  decide +kernel

/-- The value in the next argument. -/
example : "--".toList ∉ ["driver.py".toList] ∧ "4".toList.head? ≠ some '-' := by decide +kernel

end Verif
