import Verif.Model.SyntheticDesign
import Verif.Props.DataDesign
import Verif.Props.Generators

/-!
# C96: a generated data design contains exactly the configured data sets
-/

namespace Verif

open Verif.Spec

/-- The name of the data set of an entry of the configuration. -/
def entryName (T : FloatText) (p : DataSetParams) : String := String.ofList (p.str T)

/-- The sizes of the publishers of an entry (C46). -/
noncomputable def entrySizes (p : DataSetParams) : List Int :=
  publisherSizes p.numPublishers p.largestSize ((p.ratio : ℚ) : ℝ)

/-- An entry all of whose publishers have users, with a name that can be a file name and with classes
that do what they should: the impressions reach exactly the users `0..n-1` (C44), the price is fixed,
and the set generator yields as many distinct ids as it is asked for. -/
structure Supported (G : GeneratorClasses) (T : FloatText) (p : DataSetParams) : Prop where
  plain : PlainName (entryName T p)
  sizes : ∀ t ∈ entrySizes p, 0 < t
  impressions : ∀ k i n u, u ∈ G.impressions p.impressions k i n ↔ 0 ≤ u ∧ u < n
  price : ∃ cpi : ℚ, 0 < cpi ∧ G.price p.pricing = fixedPrice cpi ∧
    ∀ m : Nat, Printable T (((m : ℚ) + 1) * cpi)
  overlap : ∀ k g, G.overlap p.overlaps k = some g → ∀ sizes : List Nat,
    (g sizes).map List.length = sizes ∧ ∀ ids ∈ g sizes, ids.Nodup

/-- The publishers an entry asks for: numbers from one as names, and the reaches. -/
noncomputable def configuredPublishers (p : DataSetParams) : List (String × Int) :=
  (entrySizes p).zipIdx.map (fun s => (String.ofList (showInt ((s.2 : Int) + 1)), s.1))

/-- `ds` is what entry `p`, the `k`-th of the configuration, asks for: its name, its publishers with
their reaches, every impression at the same price, and the users: the first ones for full overlap, and
those of the set generator otherwise. -/
structure Described (G : GeneratorClasses) (T : FloatText) (k : Nat) (p : DataSetParams)
    (ds : DataSet) : Prop where
  name : ds.name = entryName T p
  publishers : ds.data.map (fun q => (q.name, (q.maxReach : Int))) = configuredPublishers p
  price : ∀ cpi, G.price p.pricing = fixedPrice cpi → ∀ q ∈ ds.data,
    q.data.map (·.2) = (List.range q.data.length).map (fun j : Nat => ((j : ℚ) + 1) * cpi)
  full : G.overlap p.overlaps k = none → ∀ q ∈ ds.data, ∀ u,
    u ∈ q.data.map (·.1) ↔ 0 ≤ u ∧ u < (q.maxReach : Int)
  sets : ∀ g, G.overlap p.overlaps k = some g →
    List.Forall₂ (fun ids q => ∀ u, u ∈ q.data.map (·.1) ↔ u ∈ ids)
      (g ((entrySizes p).map Int.toNat)) ds.data

/-! ## One data set -/

theorem showInt_name_ne (k : Nat) : String.ofList (showInt ((k : Int) + 1)) ≠ "" := by
  intro h
  have := congrArg String.toList h
  rw [String.toList_ofList] at this
  unfold showInt at this
  rw [if_neg (by omega)] at this
  unfold showNat at this
  split at this <;> simp at this

/-- What is known of a generated publisher. -/
structure Generated (imps : Nat → Int → List Int) (cpi : ℚ) (si : Int × Nat) (p : PublisherData) :
    Prop where
  name : p.name = String.ofList (showInt ((si.2 : Int) + 1))
  reach : (p.maxReach : Int) = si.1
  data : p.data = fixedPrice cpi (imps si.2 si.1)
  built : Built (fixedPrice cpi (imps si.2 si.1)) p

theorem generated_publishers (imps : Nat → Int → List Int) (cpi : ℚ) (rnd : String)
    (hm : ∀ i n u, u ∈ imps i n ↔ 0 ≤ u ∧ u < n) (hc : 0 < cpi) (l : List (Int × Nat))
    (hl : ∀ si ∈ l, 0 < si.1) :
    ∃ pubs, l.mapM (fun si => generatePublisherData (imps si.2 si.1) (fixedPrice cpi)
        (String.ofList (showInt ((si.2 : Int) + 1))) rnd) = .ok pubs ∧
      List.Forall₂ (Generated imps cpi) l pubs := by
  induction l with
  | nil => exact ⟨[], rfl, .nil⟩
  | cons si l ih =>
    obtain ⟨pubs, h1, h2⟩ := ih (fun s hs => hl s (List.mem_cons_of_mem _ hs))
    obtain ⟨p, hp, hr, -⟩ := C44_generated_publisher (imps si.2 si.1) si.1 cpi
      (String.ofList (showInt ((si.2 : Int) + 1))) rnd (hm _ _) (hl si (by simp)) hc
    refine ⟨p :: pubs, ?_, .cons ?_ h2⟩
    · rw [mapM_ok_iff] at h1 ⊢
      exact .cons hp h1
    · refine ⟨?_, hr, ?_, ⟨_, _, hp⟩⟩
      · obtain ⟨m, -, rfl⟩ := (new_ok_iff _ _ _ _).1 hp
        exact if_neg (showInt_name_ne _)
      · have hb : Built _ p := ⟨_, _, hp⟩
        rw [hb.data_eq, sortBySpend_of_sorted _ (fixedPrice_sorted cpi _ hc)]

theorem publisherName_plain (k : Nat) : PlainName (String.ofList (showInt ((k : Int) + 1))) := by
  refine ⟨showInt_name_ne k, ?_⟩
  rw [String.toList_ofList]
  intro h
  rcases showInt_chars _ _ h with h | h
  · exact absurd h (by decide)
  · exact absurd h (by decide)

theorem publisherName_inj {j k : Nat}
    (h : String.ofList (showInt ((j : Int) + 1)) = String.ofList (showInt ((k : Int) + 1))) : j = k := by
  have h' := congrArg String.toList h
  rw [String.toList_ofList, String.toList_ofList] at h'
  have e := parseInt_showInt ((j : Int) + 1)
  rw [h', parseInt_showInt] at e
  have := Option.some.inj e
  omega

/-- The spends of a fixed price. -/
theorem fixedPrice_spends (cpi : ℚ) (imps : List Int) :
    (fixedPrice cpi imps).map (·.2) =
      (List.range imps.length).map (fun j : Nat => ((j : ℚ) + 1) * cpi) := by
  apply List.ext_getElem
  · simp [fixedPrice]
  · intro i h1 h2
    simp [fixedPrice]

/-- What is known of a publisher in a generated data set. -/
structure Labelled (cpi : ℚ) (si : Int × Nat) (p : PublisherData) : Prop where
  name : p.name = String.ofList (showInt ((si.2 : Int) + 1))
  reach : (p.maxReach : Int) = si.1
  spends : p.data.map (·.2) = (List.range p.data.length).map (fun j : Nat => ((j : ℚ) + 1) * cpi)
  built : Built p.data p

theorem Generated.labelled {imps : Nat → Int → List Int} {cpi : ℚ} {si : Int × Nat}
    {p : PublisherData} (h : Generated imps cpi si p) : Labelled cpi si p := by
  refine ⟨h.name, h.reach, ?_, by rw [h.data]; exact h.built⟩
  rw [h.data, fixedPrice_spends, fixedPrice_length]

theorem relabelled (setOrder : List Int → List Int) (ho : ∀ l : List Int, (setOrder l).Perm l.dedup)
    (rnd : String) (cpi : ℚ) (lists : List (List Int)) (l : List (Int × Nat))
    (pubs : List PublisherData) (h : List.Forall₂ (Labelled cpi) l pubs)
    (hlen : lists.map List.length = pubs.map (·.maxReach)) (hnd : ∀ ids ∈ lists, ids.Nodup) :
    ∃ qs, labelIds setOrder lists pubs rnd = .ok qs ∧ List.Forall₂ (Labelled cpi) l qs ∧
      List.Forall₂ (fun ids q => ∀ u, u ∈ q.data.map (·.1) ↔ u ∈ ids) lists qs := by
  induction h generalizing lists with
  | nil =>
    cases lists with
    | nil => exact ⟨[], rfl, .nil, .nil⟩
    | cons a b => simp at hlen
  | @cons si p l pubs hp _ ih =>
    cases lists with
    | nil => simp at hlen
    | cons ids lists =>
      simp only [List.map_cons, List.cons.injEq] at hlen
      obtain ⟨qs, h1, h2, h3⟩ := ih lists hlen.2 (fun i hi => hnd i (List.mem_cons_of_mem _ hi))
      obtain ⟨q, f, hq, hdata, hbq, hname, hu, -⟩ :=
        labelOne_spec setOrder ho ids p p.data hp.built rnd hlen.1
      refine ⟨q :: qs, ?_, .cons ⟨?_, ?_, ?_, ?_⟩ h2, .cons hu h3⟩
      · unfold labelIds at h1 ⊢
        rw [List.zip_cons_cons]
        rw [mapM_ok_iff] at h1 ⊢
        exact .cons hq h1
      · rw [hname, hp.name, if_neg (showInt_name_ne _)]
      · rw [← hp.reach, hbq.maxReach_eq, ← hlen.1]
        have e : (lenSet (q.data.map (·.1)) : Int) = ids.length := by
          rw [lenSet_eq_ncard]
          have : {u | u ∈ q.data.map (·.1)} = {u | u ∈ ids} := by ext u; exact hu u
          rw [this, ← lenSet_eq_ncard]
          unfold lenSet
          rw [(hnd ids (by simp)).dedup]
        exact e
      · rw [hdata, List.map_map, List.length_map, ← hp.spends]
        rfl
      · rw [hdata]; exact hbq

/-- Generating a supported entry gives what it asks for, and that can be stored. -/
theorem generate_supported (G : GeneratorClasses) (T : FloatText)
    (ho : ∀ l : List Int, (G.setOrder l).Perm l.dedup) (p : DataSetParams) (hs : Supported G T p)
    (k : Nat) : ∃ ds, G.generate T k p = .ok ds ∧ Described G T k p ds ∧ Storable T ds := by
  obtain ⟨hplain, hsz, himp, ⟨cpi, hc, hprice, hprint⟩, hov⟩ := hs
  obtain ⟨pubs, h1, h2⟩ := generated_publishers (G.impressions p.impressions k) cpi G.rnd
    (himp k) hc ((entrySizes p).zipIdx) (by
      intro si hsi
      exact hsz _ (by
        obtain ⟨s, i⟩ := si
        exact (List.mem_zipIdx hsi).2.2 ▸ List.getElem_mem _))
  have hgen : G.generate T k p = G.overlapped p k (entryName T p) pubs := by
    unfold GeneratorClasses.generate generateDataSet
    rw [hprice]
    unfold entrySizes at h1
    simp only [h1, bind, Except.bind]
    rfl
  have hlab : List.Forall₂ (Labelled cpi) (entrySizes p).zipIdx pubs := h2.imp (fun _ _ h => h.labelled)
  -- what follows from the labels
  have key : ∀ qs, List.Forall₂ (Labelled cpi) (entrySizes p).zipIdx qs →
      ∀ ds, DataSet.new qs (entryName T p) = .ok ds →
      (ds.name = entryName T p ∧ ds.data = qs ∧
        ds.data.map (fun q => (q.name, (q.maxReach : Int))) = configuredPublishers p ∧
        (∀ cpi', G.price p.pricing = fixedPrice cpi' → ∀ q ∈ ds.data,
          q.data.map (·.2) = (List.range q.data.length).map (fun j : Nat => ((j : ℚ) + 1) * cpi')) ∧
        Storable T ds) := by
    intro qs hq ds hds
    have hds0 := hds
    unfold DataSet.new at hds
    rw [if_neg hplain.1] at hds
    cases hds
    have hmem : ∀ q ∈ qs, ∃ si ∈ (entrySizes p).zipIdx, Labelled cpi si q := by
      intro q hq'
      obtain ⟨i, hi, rfl⟩ := List.getElem_of_mem hq'
      have hi' : i < (entrySizes p).zipIdx.length := by rw [hq.length_eq]; exact hi
      exact ⟨_, List.getElem_mem hi', List.forall₂_iff_get.1 hq |>.2 i hi' hi⟩
    have hnames : qs.map (fun q => (q.name, (q.maxReach : Int))) = configuredPublishers p := by
      unfold configuredPublishers
      clear hmem hds0
      generalize (entrySizes p).zipIdx = l at hq
      induction hq with
      | nil => rfl
      | cons h _ ih => rw [List.map_cons, List.map_cons, ih, h.name, h.reach]
    refine ⟨rfl, rfl, hnames, ?_, ⟨qs.map (·.data), ?_, ?_⟩, ⟨none, hds0⟩, hplain, ?_, ?_⟩
    · intro cpi' he q hq'
      obtain ⟨si, -, hl⟩ := hmem q hq'
      have : cpi' = cpi := by
        have := congrFun (hprice.symm.trans he) [0]
        simp [fixedPrice] at this
        exact this.symm
      rw [this]
      exact hl.spends
    · rw [List.forall₂_map_left_iff, List.forall₂_same]
      intro q hq'
      obtain ⟨si, -, hl⟩ := hmem q hq'
      exact hl.built
    · intro log hlog e he
      obtain ⟨q, hq', rfl⟩ := List.mem_map.1 hlog
      obtain ⟨si, -, hl⟩ := hmem q hq'
      have : e.2 ∈ q.data.map (·.2) := List.mem_map_of_mem he
      rw [hl.spends] at this
      obtain ⟨j, -, hj⟩ := List.mem_map.1 this
      rw [← hj]
      exact hprint j
    · intro q hq'
      obtain ⟨si, -, hl⟩ := hmem q hq'
      rw [hl.name]
      exact publisherName_plain _
    · have e : qs.map (·.name) =
          (entrySizes p).zipIdx.map (fun s => String.ofList (showInt ((s.2 : Int) + 1))) := by
        have := congrArg (List.map Prod.fst) hnames
        simpa [configuredPublishers, Function.comp_def] using this
      rw [e, List.nodup_iff_injective_get]
      intro a b hab
      simp only [List.get_eq_getElem, List.getElem_map, List.getElem_zipIdx, Nat.zero_add] at hab
      exact Fin.ext (publisherName_inj hab)
  cases hg : G.overlap p.overlaps k with
  | none =>
    have hds : G.overlapped p k (entryName T p) pubs = DataSet.new pubs (entryName T p) := by
      unfold GeneratorClasses.overlapped; rw [hg]
    have hok : ∃ ds, DataSet.new pubs (entryName T p) = .ok ds := by
      unfold DataSet.new; rw [if_neg hplain.1]; exact ⟨_, rfl⟩
    obtain ⟨ds, hok⟩ := hok
    obtain ⟨a, b, c, d, e⟩ := key pubs hlab ds hok
    refine ⟨ds, by rw [hgen, hds, hok], ⟨a, c, d, ?_, by rw [hg]; simp⟩, e⟩
    intro _ q hq u
    rw [b] at hq
    obtain ⟨i, hi, rfl⟩ := List.getElem_of_mem hq
    have hi' : i < (entrySizes p).zipIdx.length := by rw [h2.length_eq]; exact hi
    have hl := List.forall₂_iff_get.1 h2 |>.2 i hi' hi
    simp only [List.get_eq_getElem] at hl
    rw [hl.data, (C44_fixed_price cpi _).1, himp, hl.reach]
  | some g =>
    have hlen : (g (pubs.map (·.maxReach))).map List.length = pubs.map (·.maxReach) :=
      (hov k g hg _).1
    obtain ⟨qs, q1, q2, q3⟩ := relabelled G.setOrder ho G.rnd cpi (g (pubs.map (·.maxReach))) _ pubs
      hlab hlen (hov k g hg _).2
    have hds : G.overlapped p k (entryName T p) pubs = DataSet.new qs (entryName T p) := by
      unfold GeneratorClasses.overlapped overlapDataSet
      simp only [hg, q1, bind, Except.bind]
    have hok : ∃ ds, DataSet.new qs (entryName T p) = .ok ds := by
      unfold DataSet.new; rw [if_neg hplain.1]; exact ⟨_, rfl⟩
    obtain ⟨ds, hok⟩ := hok
    obtain ⟨a, b, c, d, e⟩ := key qs q2 ds hok
    refine ⟨ds, by rw [hgen, hds, hok], ⟨a, c, d, by rw [hg]; simp, ?_⟩, e⟩
    intro g' hg'
    rw [hg] at hg'
    cases hg'
    have hsizes : pubs.map (·.maxReach) = (entrySizes p).map Int.toNat := by
      have : pubs.map (·.maxReach) = (entrySizes p).zipIdx.map (fun s => s.1.toNat) := by
        clear h1 hgen key hlen q1 q2 q3 hds b h2
        generalize (entrySizes p).zipIdx = l at hlab
        induction hlab with
        | nil => rfl
        | cons h _ ih =>
          rw [List.map_cons, List.map_cons, ih]
          have := h.reach
          congr 1
          omega
      rw [this]
      have e2 : (fun s : Int × Nat => s.1.toNat) = Int.toNat ∘ Prod.fst := rfl
      rw [e2, ← List.map_map, List.zipIdx_map_fst]
    rw [← hsizes, b]
    exact q3

/-! ## The whole design -/

/-- The loop over supported entries with new names adds what they ask for, one after the other. -/
theorem fill_supported (G : GeneratorClasses) (T : FloatText)
    (ho : ∀ l : List Int, (G.setOrder l).Perm l.dedup) (dir : String) (config : List DataSetParams)
    (hs : ∀ p ∈ config, Supported G T p) (hnd : (config.map (entryName T)).Nodup) (k : Nat)
    (added : List String) (st : DesignState) (h : DesignInv dir added st)
    (hnew : ∀ p ∈ config, entryName T p ∉ added) :
    ∃ dss : List DataSet, G.fill T k config st = (.ok (), designRun T st (dss.map .add)) ∧
      dss.map (·.name) = config.map (entryName T) ∧ (∀ ds ∈ dss, Storable T ds) ∧
      ∀ i p, config[i]? = some p → ∃ ds, dss[i]? = some ds ∧ G.generate T (k + i) p = .ok ds ∧
        Described G T (k + i) p ds := by
  induction config generalizing k added st with
  | nil => exact ⟨[], rfl, rfl, by simp, by simp⟩
  | cons p ps ih =>
    obtain ⟨ds, hgen, hdesc, hst⟩ := generate_supported G T ho p (hs p (by simp)) k
    have hn : ds.name ∉ added := by rw [hdesc.name]; exact hnew p (by simp)
    have hadd := add_new T dir added st h ds hst hn
    have hstep := h.step (T := T) (.add ds) (fun d hd => by cases hd; exact hst)
    rw [List.map_cons, List.nodup_cons] at hnd
    obtain ⟨dss, h1, h2, h3, h4⟩ := ih (fun q hq => hs q (List.mem_cons_of_mem _ hq)) hnd.2 (k + 1)
      _ _ hstep (by
        intro q hq hm
        rcases List.mem_append.1 hm with hm | hm
        · exact hnew q (List.mem_cons_of_mem _ hq) hm
        · have : entryName T q = ds.name := by simpa [addedNames] using hm
          rw [hdesc.name] at this
          exact hnd.1 (List.mem_map.2 ⟨q, hq, this⟩))
    have hd : designStep T st (.add ds) = (⟨dir, DataDesign.addName st.1.dataSetNames ds.name⟩,
      ⟨⟨joinPath dir ds.name :: st.2.fs.dirs,
        st.2.fs.files ++ ds.data.map (fileOf T (joinPath dir ds.name))⟩, st.2.cache⟩) := by
      rw [designStep, hadd]
    refine ⟨ds :: dss, ?_, ?_, ?_, ?_⟩
    · unfold GeneratorClasses.fill
      simp only [hgen, hadd]
      rw [← hd, h1]
      rfl
    · rw [List.map_cons, List.map_cons, h2, hdesc.name]
    · intro d hd'
      rcases List.mem_cons.1 hd' with rfl | hd'
      · exact hst
      · exact h3 d hd'
    · intro i q hq
      cases i with
      | zero =>
        simp only [List.getElem?_cons_zero, Option.some.injEq] at hq
        subst hq
        exact ⟨ds, rfl, hgen, hdesc⟩
      | succ i =>
        rw [List.getElem?_cons_succ] at hq
        obtain ⟨d, a, b, c⟩ := h4 i q hq
        refine ⟨d, a, ?_, ?_⟩
        · rw [← Nat.add_assoc, Nat.add_right_comm]; exact b
        · rw [← Nat.add_assoc, Nat.add_right_comm]; exact c

theorem addedNames_adds (dss : List DataSet) : addedNames (dss.map .add) = dss.map (·.name) := by
  unfold addedNames
  rw [List.filterMap_map]
  induction dss with
  | nil => rfl
  | cons d l ih => simp only [List.map_cons, ← ih]; rfl

/-- The output directory is empty, and the process has not read anything. -/
def EmptyOutput (dir : String) (pr : Process) (d : DataDesign × Fs) : Prop :=
  DataDesign.new dir pr.fs = .ok d ∧ EmptyDesign (d.1, ⟨d.2, pr.cache⟩)

theorem EmptyOutput.dirpath {dir : String} {pr : Process} {d : DataDesign × Fs}
    (h : EmptyOutput dir pr d) : d.1.dirpath = dir := by
  obtain ⟨h, -⟩ := h
  unfold DataDesign.new at h
  rcases hm : pr.fs.mkdir dir with e | fs
  · rw [hm] at h; cases h
  · rw [hm] at h
    simp only [bind, Except.bind, pure, Except.pure, Except.ok.injEq] at h
    rw [← h]

/-- The publishers come back in the order they were generated in. -/
def InOrder (dir : String) (ds ds' : DataSet) : Prop :=
  List.Forall₂ (SamePublisher (dir ++ "/" ++ ds.name)) ds.data ds'.data

/-- `st'` holds what the configuration asks for; `inOrder` says for which entries the order of the
publishers is claimed. -/
def HoldsDesign (G : GeneratorClasses) (T : FloatText) (dir : String) (config : List DataSetParams)
    (inOrder : DataSetParams → Prop) (st' : DataDesign × Process) : Prop :=
  st'.1.names.Perm (config.map (entryName T)) ∧ st'.1.names.Pairwise (fun a b => a ≤ b) ∧
  st'.1.count = config.length ∧
  ∀ k p, config[k]? = some p → ∃ ds ds', Described G T k p ds ∧
    (st'.1.byName T st'.2 (entryName T p)).1 = .ok ds' ∧ ReadBack dir ds ds' ∧
    (inOrder p → InOrder dir ds ds')

/-- C96 as stated: every configuration with distinct names yields exactly the data sets it asks for,
with the publishers in order. -/
def C96_full : Prop :=
  ∀ (G : GeneratorClasses) (T : FloatText) (dir : String) (pr : Process) (d : DataDesign × Fs)
    (config : List DataSetParams), (∀ l : List Int, (G.setOrder l).Perm l.dedup) →
    EmptyOutput dir pr d → (∀ p ∈ config, Supported G T p) → (config.map (entryName T)).Nodup →
    ∃ st', G.call T dir config pr = .ok (.ok (), st') ∧
      HoldsDesign G T dir config (fun _ => True) st'

theorem names_nine : ∀ i : Nat, i < 9 → ∀ j : Nat, j < 9 → i < j →
    String.ofList (showInt ((i : Int) + 1)) ≤ String.ofList (showInt ((j : Int) + 1)) := by
  decide +kernel

/-- At most nine publishers come back in order. -/
theorem readBack_inOrder {G : GeneratorClasses} {T : FloatText} {k : Nat} {p : DataSetParams}
    {ds ds' : DataSet} {dir : String} (hd : Described G T k p ds) (hr : ReadBack dir ds ds')
    (h9 : p.numPublishers ≤ 9) : InOrder dir ds ds' := by
  obtain ⟨-, -, order, ho, hsorted, hsame⟩ := hr
  have hlen : (entrySizes p).length ≤ 9 := by
    unfold entrySizes publisherSizes
    rw [sizesFrom_length]
    omega
  have hname : ∀ i (hi : i < ds.data.length), ds.data[i].name = String.ofList (showInt ((i : Int) + 1)) := by
    intro i hi
    have h1 : (ds.data.map (fun q => (q.name, (q.maxReach : Int))))[i]? =
      (configuredPublishers p)[i]? := by rw [hd.publishers]
    have hl := congrArg List.length hd.publishers
    simp only [List.length_map, configuredPublishers, List.length_zipIdx] at hl
    rw [List.getElem?_map, List.getElem?_eq_getElem hi, Option.map_some, configuredPublishers,
      List.getElem?_map, List.getElem?_eq_getElem (by rw [List.length_zipIdx]; omega), Option.map_some,
      List.getElem_zipIdx] at h1
    have := congrArg Prod.fst (Option.some.inj h1)
    simpa using this
  have hdl : ds.data.length ≤ 9 := by
    have hl := congrArg List.length hd.publishers
    simp only [List.length_map, configuredPublishers, List.length_zipIdx] at hl
    omega
  have hpw : ds.data.Pairwise (fun p q => p.name ≤ q.name) := by
    rw [List.pairwise_iff_getElem]
    intro i j hi hj hij
    rw [hname i hi, hname j hj]
    exact names_nine i (by omega) j (by omega) hij
  have he : order = ds.data := by
    refine List.Perm.eq_of_pairwise (le := fun p q : PublisherData => p.name ≤ q.name) ?_ hsorted hpw ho
    intro a b ha hb h1 h2
    have hn := le_antisymm h1 h2
    have ha' := ho.mem_iff.1 ha
    obtain ⟨i, hi, rfl⟩ := List.getElem_of_mem ha'
    obtain ⟨j, hj, rfl⟩ := List.getElem_of_mem hb
    rw [hname i hi, hname j hj] at hn
    have := publisherName_inj hn
    subst this
    rfl
  rw [he] at hsame
  exact hsame

theorem call_eq (G : GeneratorClasses) (T : FloatText) (dir : String) (pr : Process)
    (d : DataDesign × Fs) (config : List DataSetParams) (h : DataDesign.new dir pr.fs = .ok d) :
    G.call T dir config pr = .ok (G.fill T 0 config (d.1, ⟨d.2, pr.cache⟩)) := by
  unfold GeneratorClasses.call
  simp only [h, bind, Except.bind, pure, Except.pure]

/-- **C96 (partial).** For every configuration with distinct names and an empty output directory the
generator ends normally; the design has one data set for each entry, named after it, with the
publishers, reaches, prices and users the entry asks for, and finds it again. Up to nine publishers
come back in the order of the configuration. Missing: the order of ten and more publishers, for which
it is false. -/
theorem C96_contents_partial (G : GeneratorClasses) (T : FloatText) (dir : String) (pr : Process)
    (d : DataDesign × Fs) (config : List DataSetParams)
    (ho : ∀ l : List Int, (G.setOrder l).Perm l.dedup) (hout : EmptyOutput dir pr d)
    (hs : ∀ p ∈ config, Supported G T p) (hnd : (config.map (entryName T)).Nodup) :
    ∃ st', G.call T dir config pr = .ok (.ok (), st') ∧
      HoldsDesign G T dir config (fun p => p.numPublishers ≤ 9) st' := by
  have hdir := hout.dirpath
  obtain ⟨hnew, hempty⟩ := hout
  obtain ⟨dss, h1, h2, h3, h4⟩ := fill_supported G T ho _ config hs hnd 0 [] _ hempty.inv (by simp)
  have hops : ∀ ds, DesignOp.add ds ∈ dss.map DesignOp.add → Storable T ds := by
    intro ds hd
    obtain ⟨d', hd', e⟩ := List.mem_map.1 hd
    cases e
    exact h3 _ hd'
  have hnames := C45_names T _ hempty _ hops
  simp only at hnames
  obtain ⟨n1, n2, n3, n4⟩ := hnames
  have hperm : (designRun T (d.1, ⟨d.2, pr.cache⟩) (dss.map .add)).1.names.Perm
      (config.map (entryName T)) := by
    rw [List.perm_ext_iff_of_nodup n2 hnd]
    intro n
    rw [n1, ← h2, List.mem_map]
    constructor
    · rintro ⟨ds, hd, e⟩
      obtain ⟨d', hd', e'⟩ := List.mem_map.1 hd
      cases e'
      exact ⟨_, hd', e⟩
    · rintro ⟨ds, hd, e⟩
      exact ⟨ds, List.mem_map_of_mem hd, e⟩
  refine ⟨_, by rw [call_eq G T dir pr d config hnew, h1], hperm, n3, ?_, ?_⟩
  · rw [n4, hperm.length_eq, List.length_map]
  · intro k p hk
    obtain ⟨ds, a, -, c⟩ := h4 k p hk
    rw [Nat.zero_add] at c
    obtain ⟨hk1, hk2⟩ := List.getElem?_eq_some_iff.1 a
    have hsplit : dss = dss.take k ++ ds :: dss.drop (k + 1) := by
      rw [← hk2, List.cons_getElem_drop_succ, List.take_append_drop]
    have hnd' : (dss.map (·.name)).Nodup := by rw [h2]; exact hnd
    have hl := C45_lookup_partial T _ hempty ((dss.take k).map .add) ((dss.drop (k + 1)).map .add) ds
      (by
        intro x hx
        apply hops
        rw [hsplit]
        simpa using hx)
      (by
        intro x hx e
        obtain ⟨x', hx', ex⟩ := List.mem_map.1 hx
        cases ex
        rw [hsplit, List.map_append, List.nodup_append] at hnd'
        exact hnd'.2.2 x.name (List.mem_map_of_mem hx') ds.name (by simp) e)
      (by
        intro m hm
        obtain ⟨x, -, ex⟩ := List.mem_map.1 hm
        cases ex)
    obtain ⟨ds', l1, l2⟩ := hl
    have hrun : (dss.take k).map DesignOp.add ++ .add ds :: (dss.drop (k + 1)).map DesignOp.add =
        dss.map DesignOp.add := by
      conv_rhs => rw [hsplit]
      rw [List.map_append, List.map_cons]
    rw [hrun] at l1
    simp only [hdir] at l2
    refine ⟨ds, ds', c, ?_, l2, fun h9 => readBack_inOrder c l2 h9⟩
    rw [← c.name]
    exact l1

/-- A prefix of the configuration is worked off first. -/
theorem fill_append (G : GeneratorClasses) (T : FloatText) (pre post : List DataSetParams) (k : Nat)
    (st st' : DataDesign × Process) (h : G.fill T k pre st = (.ok (), st')) :
    G.fill T k (pre ++ post) st = G.fill T (k + pre.length) post st' := by
  induction pre generalizing k st with
  | nil =>
    unfold GeneratorClasses.fill at h
    cases h
    rfl
  | cons p ps ih =>
    unfold GeneratorClasses.fill at h
    rw [List.cons_append]
    conv_lhs => unfold GeneratorClasses.fill
    rcases hg : G.generate T k p with e | ds
    · rw [hg] at h; cases h
    · rw [hg] at h
      simp only at h ⊢
      rcases ha : st.1.add T st.2 ds with e | st1
      · rw [ha] at h; cases h
      · rw [ha] at h
        simp only at h ⊢
        rw [ih _ _ h, List.length_cons]
        congr 1
        omega

/-- After working off supported entries the invariant of designs holds for their names. -/
theorem fill_inv (G : GeneratorClasses) (T : FloatText)
    (ho : ∀ l : List Int, (G.setOrder l).Perm l.dedup) (pr : Process) (dir : String)
    (d : DataDesign × Fs) (hout : EmptyOutput dir pr d) (config : List DataSetParams)
    (hs : ∀ p ∈ config, Supported G T p) (hnd : (config.map (entryName T)).Nodup) :
    ∃ st', G.fill T 0 config (d.1, ⟨d.2, pr.cache⟩) = (.ok (), st') ∧
      DesignInv dir (config.map (entryName T)) st' ∧
      ∃ d', DataDesign.new dir st'.2.fs = .ok (d', st'.2.fs) ∧ d'.dirpath = dir ∧
        d'.names = st'.1.names := by
  have hdir := hout.dirpath
  obtain ⟨hnew, hempty⟩ := hout
  obtain ⟨dss, h1, h2, h3, h4⟩ := fill_supported G T ho _ config hs hnd 0 [] _ hempty.inv (by simp)
  have hops : ∀ ds, DesignOp.add ds ∈ dss.map DesignOp.add → Storable T ds := by
    intro ds hd
    obtain ⟨d', hd', e⟩ := List.mem_map.1 hd
    cases e
    exact h3 _ hd'
  have hinv := hempty.inv.run (T := T) _ hops
  rw [List.nil_append, addedNames_adds, h2] at hinv
  simp only [hdir] at hinv
  obtain ⟨d', r1, r2, -⟩ := C45_reopen T _ hempty _ hops
  simp only [hdir] at r1
  refine ⟨_, h1, hinv, d', r1, ?_, r2⟩
  unfold DataDesign.new at r1
  rcases hm : (designRun T (d.1, ⟨d.2, pr.cache⟩) (dss.map .add)).2.fs.mkdir dir with e | fs
  · rw [hm] at r1; cases r1
  · rw [hm] at r1
    simp only [bind, Except.bind, pure, Except.pure, Except.ok.injEq, Prod.mk.injEq] at r1
    rw [← r1.1]

/-- **C96 (a repeated name).** The generator stops with a `ValueError` at the first entry whose name has
occurred before, and leaves what the entries before it asked for. -/
theorem C96_repeated (G : GeneratorClasses) (T : FloatText) (dir : String) (pr : Process)
    (d : DataDesign × Fs) (pre post : List DataSetParams) (p : DataSetParams)
    (ho : ∀ l : List Int, (G.setOrder l).Perm l.dedup) (hout : EmptyOutput dir pr d)
    (hs : ∀ q ∈ pre, Supported G T q) (hnd : (pre.map (entryName T)).Nodup)
    (hp : Supported G T p) (hrep : entryName T p ∈ pre.map (entryName T)) :
    ∃ st', G.call T dir pre pr = .ok (.ok (), st') ∧
      G.call T dir (pre ++ p :: post) pr = .ok (.error .valueError, st') := by
  obtain ⟨st', h1, hinv, -⟩ := fill_inv G T ho pr dir d hout pre hs hnd
  refine ⟨st', by rw [call_eq G T dir pr d _ hout.1, h1], ?_⟩
  rw [call_eq G T dir pr d _ hout.1, fill_append G T pre _ 0 _ _ h1]
  obtain ⟨ds, g1, g2, -⟩ := generate_supported G T ho p hp (0 + pre.length)
  unfold GeneratorClasses.fill
  simp only [g1]
  rw [add_old T dir _ st' hinv ds (by rw [g2.name]; exact hrep)]

/-- **C96 (a second run).** Starting the generator again on the directory of an earlier run, with a
configuration whose first entry was in the earlier one, is refused with a `ValueError` and changes no
file. -/
theorem C96_again (G : GeneratorClasses) (T : FloatText) (dir : String) (pr : Process)
    (d : DataDesign × Fs) (config post : List DataSetParams) (p : DataSetParams)
    (ho : ∀ l : List Int, (G.setOrder l).Perm l.dedup) (hout : EmptyOutput dir pr d)
    (hs : ∀ q ∈ config, Supported G T q) (hnd : (config.map (entryName T)).Nodup)
    (hp : p ∈ config) :
    ∃ st' d', G.call T dir config pr = .ok (.ok (), st') ∧
      G.call T dir (p :: post) ⟨st'.2.fs, []⟩ = .ok (.error .valueError, (d', ⟨st'.2.fs, []⟩)) ∧
      d'.names = st'.1.names := by
  obtain ⟨st', h1, hinv, d', r1, r2, r3⟩ := fill_inv G T ho pr dir d hout config hs hnd
  refine ⟨st', d', by rw [call_eq G T dir pr d _ hout.1, h1], ?_, r3⟩
  rw [call_eq G T dir ⟨st'.2.fs, []⟩ _ _ r1]
  obtain ⟨ds, g1, g2, -⟩ := generate_supported G T ho p (hs p hp) 0
  unfold GeneratorClasses.fill
  simp only [g1]
  have : d'.add T ⟨st'.2.fs, []⟩ ds = .error .valueError := by
    unfold DataDesign.add
    rw [r2, if_pos]
    refine Or.inl ((hinv.dirs _).2 ⟨_, ?_, rfl⟩).1
    rw [g2.name]
    exact List.mem_map_of_mem hp
  rw [this]

/-- **C96 (an empty publisher).** If the sizes of an entry reach zero, the generator stops there with a
`ValueError`, and leaves what the entries before it asked for. -/
theorem C96_empty_publisher (G : GeneratorClasses) (T : FloatText) (dir : String) (pr : Process)
    (d : DataDesign × Fs) (pre post : List DataSetParams) (p : DataSetParams) (cpi : ℚ)
    (ho : ∀ l : List Int, (G.setOrder l).Perm l.dedup) (hout : EmptyOutput dir pr d)
    (hs : ∀ q ∈ pre, Supported G T q) (hnd : (pre.map (entryName T)).Nodup)
    (hi : ∀ k i n u, u ∈ G.impressions p.impressions k i n ↔ 0 ≤ u ∧ u < n)
    (hc : 0 < cpi) (hprice : G.price p.pricing = fixedPrice cpi) (hz : ∃ t ∈ entrySizes p, t ≤ 0) :
    ∃ st', G.call T dir pre pr = .ok (.ok (), st') ∧
      G.call T dir (pre ++ p :: post) pr = .ok (.error .valueError, st') := by
  obtain ⟨st', h1, -⟩ := fill_inv G T ho pr dir d hout pre hs hnd
  refine ⟨st', by rw [call_eq G T dir pr d _ hout.1, h1], ?_⟩
  rw [call_eq G T dir pr d _ hout.1, fill_append G T pre _ 0 _ _ h1]
  have : G.generate T (0 + pre.length) p = .error .valueError := by
    unfold GeneratorClasses.generate
    rw [hprice]
    exact C46_empty_publisher _ _ _ _ cpi _ _ (hi _) hc hz
  unfold GeneratorClasses.fill
  simp only [this]

/-- **C96 (the designs that come with the code).** None of their entries has a publisher without
users. -/
theorem C96_shipped_sizes (L : List Int × List Int × List ℚ) (hL : L ∈ shippedSizes) (P N : Int)
    (ratio : ℚ) (hP : P ∈ L.1) (hN : N ∈ L.2.1) (hr : ratio ∈ L.2.2) :
    ∀ t ∈ publisherSizes P N ((ratio : ℚ) : ℝ), 0 < t := by
  have key : ∀ L ∈ shippedSizes, ∀ P ∈ L.1, ∀ N ∈ L.2.1, ∀ ratio ∈ L.2.2,
      0 < N ∧ 0 < ratio ∧ ratio ≤ 1 ∧ 1 ≤ P ∧ (P : ℚ) - 1 ≤ N * ratio := by decide +kernel
  obtain ⟨h1, h2, h3, h4, h5⟩ := key L hL P hP N hN ratio hr
  rcases eq_or_lt_of_le h4 with h | h
  · subst h
    rw [C46_single_publisher]
    intro t ht
    rw [List.mem_singleton] at ht
    omega
  · refine (C46_smallest_partial P N ((ratio : ℚ) : ℝ) (by omega) h1.le (by exact_mod_cast h2)
      (by exact_mod_cast h3)).2 ?_
    exact_mod_cast h5

example : ([1, 2, 5], [100, 500, 1000], [9/10, 1/2, 1/10]) ∈ shippedSizes := by decide +kernel

/-! ## Examples -/

/-- One impression for every user, at price one, and full overlap. -/
def exClasses : GeneratorClasses where
  impressions _ _ _ n := extendLoop n (fun _ => 1)
  price _ := fixedPrice 1
  overlap _ _ := none
  setOrder := List.dedup
  rnd := ""

/-- The same with shared users: every publisher reaches the users from ten on. -/
def exClassesShared : GeneratorClasses :=
  { exClasses with overlap := fun _ _ => some (fun sizes => sizes.map (fun n =>
      (List.range n).map (fun i : Nat => (i : Int) + 10))) }

/-- `P` publishers with two users each. -/
def exEntry (name : Text) (P : Int) : DataSetParams :=
  ⟨name, P, 2, 1, ⟨[], 0, []⟩, ⟨[], 0, []⟩, ⟨[], 0, []⟩, []⟩

theorem parseInt_newline (n : Int) : parseInt (showInt n ++ ['\n']) = some n := by
  have hsp : ∀ c ∈ showInt n, pySpace c = false := by
    intro c hc
    rcases showInt_chars n c hc with rfl | h
    · decide
    · exact pySpace_digit c h
  have hne : showInt n ≠ [] := by
    intro h
    have := parseInt_showInt n
    rw [h] at this
    cases this
  have e : pyStrip (showInt n ++ ['\n']) = pyStrip (showInt n) := by
    rw [pyStrip_of_nospace _ hsp]
    unfold pyStrip
    obtain ⟨c, l, hl⟩ := List.exists_cons_of_ne_nil hne
    have h1 : (showInt n ++ ['\n']).dropWhile pySpace = showInt n ++ ['\n'] := by
      rw [hl] at hsp ⊢
      rw [List.cons_append, List.dropWhile_cons_of_neg]
      rw [hsp c (by simp)]
      simp
    rw [h1, List.reverse_append]
    have h2 : (['\n'].reverse ++ (showInt n).reverse).dropWhile pySpace = (showInt n).reverse := by
      rw [List.reverse_singleton, List.singleton_append, List.dropWhile_cons_of_pos (by decide),
        dropWhile_of_all _ _ (by simpa using hsp)]
    rw [h2, List.reverse_reverse]
  have := parseInt_showInt n
  unfold parseInt at this ⊢
  rw [e]
  exact this

theorem exText_whole (n : Nat) : Printable exText (((n : ℚ) + 1) * 1) := by
  have e : (((n : ℚ) + 1) * 1) = (((n : Int) + 1 : Int) : ℚ) := by push_cast; ring
  rw [e]
  obtain ⟨h1, h2, h3⟩ := showInt_clean ((n : Int) + 1)
  refine ⟨?_, h1, h2, h3⟩
  simp only [exText, Rat.num_intCast, parseInt_newline, Option.map_some]

theorem exEntry_supported (name : Text) (P : Int) (hn : PlainName (String.ofList name)) :
    Supported exClasses exText (exEntry name P) := by
  have hstr : entryName exText (exEntry name P) = String.ofList name := by
    unfold entryName DataSetParams.str exEntry
    rw [if_pos]
    rintro rfl
    exact hn.1 rfl
  refine ⟨by rw [hstr]; exact hn, ?_, ?_, ⟨1, by norm_num, rfl, exText_whole⟩, ?_⟩
  · intro t ht
    unfold entrySizes exEntry at ht
    simp only [Rat.cast_one, C46_equal_sizes] at ht
    rw [List.eq_of_mem_replicate ht]
    decide
  · intro k i n u
    exact mem_extendLoop n _ (fun _ => le_rfl) u
  · intro k g hg
    cases hg

theorem exEntry_supported_shared (name : Text) (P : Int) (hn : PlainName (String.ofList name)) :
    Supported exClassesShared exText (exEntry name P) := by
  obtain ⟨a, b, c, d, -⟩ := exEntry_supported name P hn
  refine ⟨a, b, c, d, ?_⟩
  intro k g hg
  cases hg
  intro sizes
  refine ⟨by rw [List.map_map]; simp [Function.comp_def], ?_⟩
  intro ids hids
  obtain ⟨n, -, rfl⟩ := List.mem_map.1 hids
  exact List.nodup_range.map (fun a b h => by omega)

/-- An empty directory `/w`. -/
theorem exOutput : EmptyOutput "/w" exDesign.2 (exDesign.1, exDesign.2.fs) :=
  ⟨by decide +kernel, exDesign_empty⟩

/-- The hypotheses of the theorems above with two data sets, of two and of twelve publishers, with full
overlap or with a set generator. -/
example : (∀ p ∈ [exEntry "a".toList 2, exEntry "b".toList 12], Supported exClasses exText p) ∧
    (∀ p ∈ [exEntry "a".toList 2, exEntry "b".toList 12], Supported exClassesShared exText p) ∧
    ([exEntry "a".toList 2, exEntry "b".toList 12].map (entryName exText)).Nodup ∧
    EmptyOutput "/w" exDesign.2 (exDesign.1, exDesign.2.fs) := by
  refine ⟨?_, ?_, by decide +kernel, exOutput⟩
  · intro p hp
    simp only [List.mem_cons, List.not_mem_nil, or_false] at hp
    rcases hp with rfl | rfl <;> exact exEntry_supported _ _ ⟨by decide, by decide +kernel⟩
  · intro p hp
    simp only [List.mem_cons, List.not_mem_nil, or_false] at hp
    rcases hp with rfl | rfl <;> exact exEntry_supported_shared _ _ ⟨by decide, by decide +kernel⟩

/-- The hypotheses of `C96_empty_publisher`: an entry with sizes 2, 1 and 0. -/
example : ∃ t ∈ entrySizes { exEntry "c".toList 3 with ratio := 81 / 100 }, t ≤ 0 := by
  refine ⟨0, ?_, le_rfl⟩
  have e : ((((81 : ℚ) / 100 : ℚ)) : ℝ) = (9 / 10) * (9 / 10) := by push_cast; norm_num
  unfold entrySizes exEntry
  simp only [e]
  rw [exSizes]
  simp

/-- Ten publishers do not come back in order: publisher 10 is read before publisher 2. -/
theorem C96_full_is_false : ¬ C96_full := by
  intro h
  obtain ⟨st', -, -, -, -, h4⟩ := h exClasses exText "/w" exDesign.2 (exDesign.1, exDesign.2.fs)
    [exEntry "a".toList 10] (fun l => List.Perm.refl _) exOutput
    (by
      intro p hp
      rw [List.mem_singleton] at hp
      subst hp
      exact exEntry_supported _ _ ⟨by decide, by decide +kernel⟩)
    (by simp)
  obtain ⟨ds, ds', hd, -, hr, hin⟩ := h4 0 _ rfl
  have hin := hin trivial
  obtain ⟨-, -, order, ho, hsorted, hsame⟩ := hr
  -- the names come out in the order of the configuration and in the order of strings
  have hn : ∀ l : List PublisherData, List.Forall₂ (SamePublisher ("/w" ++ "/" ++ ds.name)) l ds'.data →
      ds'.data.map (·.name) = (l.map (·.name)).map (fun n => "/w" ++ "/" ++ ds.name ++ "/" ++ n) := by
    intro l hl
    generalize ds'.data = l' at hl
    induction hl with
    | nil => rfl
    | cons h _ ih => rw [List.map_cons, List.map_cons, List.map_cons, ih, h.2.2.2.1]
  have e1 := (hn _ hin).symm.trans (hn _ hsame)
  have e2 : ds.data.map (·.name) = order.map (·.name) := by
    refine List.map_injective_iff.2 ?_ e1
    intro a b hab
    have := congrArg String.toList hab
    simp only [String.toList_append] at this
    exact String.toList_injective (List.append_cancel_left this)
  have e3 : ds.data.map (·.name) = ["1", "2", "3", "4", "5", "6", "7", "8", "9", "10"] := by
    have h1 := congrArg (List.map Prod.fst) hd.publishers
    rw [List.map_map] at h1
    have h2 : (configuredPublishers (exEntry "a".toList 10)).map Prod.fst =
        ["1", "2", "3", "4", "5", "6", "7", "8", "9", "10"] := by
      unfold configuredPublishers entrySizes exEntry
      simp only [Rat.cast_one, C46_equal_sizes]
      decide +kernel
    rw [h2] at h1
    exact h1
  have hs : (order.map (·.name)).Pairwise (fun a b => a ≤ b) := by
    rw [List.pairwise_map]; exact hsorted
  rw [← e2, e3] at hs
  revert hs
  decide +kernel

end Verif
