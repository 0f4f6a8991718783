import Verif.Model.DataDesign
import Verif.Props.Storage

/-!
# C45: a data design as a write-once map
-/

namespace Verif

open Verif.Spec

/-- What a user does with a data design. -/
inductive DesignOp where
  | add (ds : DataSet)
  | lookup (name : String)

/-- A design and the process it lives in. -/
abbrev DesignState := DataDesign × Process

/-- The state after one operation; a refused addition leaves it as it was. -/
def designStep (T : FloatText) (st : DesignState) : DesignOp → DesignState
  | .add ds => match st.1.add T st.2 ds with
    | .ok st' => st'
    | .error _ => st
  | .lookup name => (st.1, (st.1.byName T st.2 name).2)

/-- The state after a sequence of operations. -/
def designRun (T : FloatText) (st : DesignState) (ops : List DesignOp) : DesignState :=
  ops.foldl (designStep T) st

/-- A data set that can be stored: made by the constructor from publishers made by theirs, with
printable spends and with names that are file names, those of the publishers pairwise distinct. -/
def Storable (T : FloatText) (ds : DataSet) : Prop :=
  (∃ logs, List.Forall₂ Built logs ds.data ∧ ∀ log ∈ logs, ∀ e ∈ log, Printable T e.2) ∧
  (∃ u, DataSet.new ds.data ds.name u = .ok ds) ∧
  PlainName ds.name ∧ (∀ p ∈ ds.data, PlainName p.name) ∧ (ds.data.map (·.name)).Nodup

/-- `ds'` is `ds` read back from directory `dir`: the same publishers in the order of their names
(C12). -/
def ReadBack (dir : String) (ds ds' : DataSet) : Prop :=
  ds'.name = ds.name ∧ ds'.maximumReach = ds.maximumReach ∧
  ∃ order : List PublisherData, order.Perm ds.data ∧
    order.Pairwise (fun p q => p.name ≤ q.name) ∧
    List.Forall₂ (SamePublisher (dir ++ "/" ++ ds.name)) order ds'.data

/-- A new design in an empty directory: the process has not read anything, and below the directory
there is nothing. -/
def EmptyDesign (st : DesignState) : Prop :=
  st.1.dirpath ≠ "" ∧ st.2.cache = [] ∧
  (∃ fs, DataDesign.new st.1.dirpath fs = .ok (st.1, st.2.fs)) ∧
  ∀ path ∈ st.2.fs.dirs ++ st.2.fs.files.map (·.1),
    parentPath path ≠ st.1.dirpath ∧
      ∀ n, PlainName n → parentPath path ≠ joinPath st.1.dirpath n

/-- The names under which something was added. -/
def addedNames (ops : List DesignOp) : List String :=
  ops.filterMap (fun op => match op with | .add ds => some ds.name | .lookup _ => none)

/-! ## Lemmas -/

theorem baseName_join (d n : String) (h : PlainName n) : baseName (joinPath d n) = n := by
  unfold baseName
  rw [joinPath_toList d n h]
  simp only [List.reverse_append, List.reverse_cons, List.append_assoc]
  rw [List.takeWhile_append_of_pos]
  · simp
  · intro c hc
    simp only [List.mem_reverse] at hc
    simp only [ne_eq, decide_not, Bool.not_eq_eq_eq_not, Bool.not_true, decide_eq_false_iff_not]
    rintro rfl
    exact h.2 hc

theorem joinPath_ne_empty (d n : String) (h : PlainName n) : joinPath d n ≠ "" := by
  intro h'
  have := congrArg String.toList h'
  rw [joinPath_toList d n h] at this
  simp at this

/-- What writing a storable data set into a missing directory does to the file system. -/
theorem write_fresh (T : FloatText) (ds : DataSet) (dir : String) (fs : Fs)
    (hplain : PlainName ds.name) (hpubs : ∀ p ∈ ds.data, PlainName p.name)
    (hnodup : (ds.data.map (·.name)).Nodup)
    (h1 : joinPath dir ds.name ∉ fs.dirs) (hf : FreshDir fs (joinPath dir ds.name)) :
    ds.write T dir "" fs = .ok ⟨joinPath dir ds.name :: fs.dirs,
      fs.files ++ ds.data.map (fileOf T (joinPath dir ds.name))⟩ := by
  unfold DataSet.write
  simp only [if_true]
  have hmk : fs.mkdir (joinPath dir ds.name)
      = .ok { fs with dirs := joinPath dir ds.name :: fs.dirs } := by
    unfold Fs.mkdir
    rw [if_neg hf.1, if_neg h1]
  rw [hmk]
  simp only [bind, Except.bind]
  rw [writeFiles_ok T _ (joinPath_ne_empty _ _ hplain) ds.data _ (by simp) hpubs hnodup]
  intro p hp
  have hpar := parentPath_join (joinPath dir ds.name) p.name (joinPath_ne_empty _ _ hplain)
    (hpubs p hp)
  refine ⟨?_, fun h => hf.2 _ (List.mem_append_right _ h) hpar⟩
  intro h
  rcases List.mem_cons.1 h with h | h
  · exact joinPath_ne_self _ _ (hpubs p hp) h
  · exact hf.2 _ (List.mem_append_left _ h) hpar

theorem dictLookup_append_left {κ ν : Type} [DecidableEq κ] (d e : Dict κ ν) (k : κ)
    (h : k ∉ e.map (·.1)) : dictLookup (d ++ e) k = dictLookup d k := by
  induction d with
  | nil => rw [List.nil_append, dictLookup_absent e k h]; rfl
  | cons x d ih =>
    obtain ⟨k', v'⟩ := x
    rw [List.cons_append, dictLookup, dictLookup, ih]

theorem readFiles_congr (T : FloatText) (fs fs' : Fs) (l : List String)
    (h : ∀ p ∈ l, fs.contentOf p = fs'.contentOf p) : readFiles T fs l = readFiles T fs' l := by
  induction l with
  | nil => rfl
  | cons p l ih =>
    rw [readFiles, readFiles, h p (by simp), ih (fun q hq => h q (List.mem_cons_of_mem _ hq))]

/-- New directories and files elsewhere do not change what is read from a directory. -/
theorem readDataSet_frame (T : FloatText) (fs : Fs) (newDir : String) (newFiles : Dict String Text)
    (dir : String) (hd : parentPath newDir ≠ dir)
    (hf : ∀ e ∈ newFiles, parentPath e.1 ≠ dir) :
    readDataSet T ⟨newDir :: fs.dirs, fs.files ++ newFiles⟩ dir = readDataSet T fs dir := by
  have hglob : (⟨newDir :: fs.dirs, fs.files ++ newFiles⟩ : Fs).glob dir = fs.glob dir := by
    unfold Fs.glob
    simp only [List.map_append, List.filter_append, List.filter_cons, hd, decide_false,
      Bool.false_eq_true, if_false]
    have : (newFiles.map (·.1)).filter (fun p => decide (parentPath p = dir)) = [] := by
      rw [List.filter_eq_nil_iff]
      intro a ha
      obtain ⟨e, he, rfl⟩ := List.mem_map.1 ha
      simpa using hf e he
    rw [this, List.append_nil]
  unfold readDataSet
  rw [hglob, readFiles_congr T _ fs]
  intro p hp
  have hp' := (sortStrings_perm _).mem_iff.1 hp
  unfold Fs.glob at hp'
  simp only [List.mem_filter, decide_eq_true_eq] at hp'
  unfold Fs.contentOf
  simp only
  rw [dictLookup_append_left]
  intro h
  obtain ⟨e, he, rfl⟩ := List.mem_map.1 h
  exact hf e he hp'.2

/-- What stays true of a design and its directory. -/
structure DesignInv (dir : String) (added : List String) (st : DesignState) : Prop where
  dirpath : st.1.dirpath = dir
  ne : dir ≠ ""
  nodup : st.1.dataSetNames.Nodup
  names : ∀ n, n ∈ st.1.dataSetNames ↔ n ∈ added
  plain : ∀ n ∈ added, PlainName n
  dirs : ∀ path, (path ∈ st.2.fs.dirs ∧ parentPath path = dir) ↔
    ∃ n ∈ added, path = joinPath dir n
  files : ∀ path ∈ st.2.fs.files.map (·.1), parentPath path ≠ dir
  below : ∀ path ∈ st.2.fs.dirs ++ st.2.fs.files.map (·.1), ∀ n, PlainName n →
    parentPath path = joinPath dir n → n ∈ added
  here : dir ∈ st.2.fs.dirs ∧ dir ∉ st.2.fs.files.map (·.1)

theorem DesignInv.fresh {dir : String} {added : List String} {st : DesignState}
    (h : DesignInv dir added st) (n : String) (hn : PlainName n) (hna : n ∉ added) :
    joinPath dir n ∉ st.2.fs.dirs ∧ joinPath dir n ∉ st.2.fs.files.map (·.1) ∧
      FreshDir st.2.fs (joinPath dir n) := by
  have hf : joinPath dir n ∉ st.2.fs.files.map (·.1) := fun hm =>
    h.files _ hm (parentPath_join dir n h.ne hn)
  refine ⟨?_, hf, hf, ?_⟩
  · intro hm
    obtain ⟨m, hm1, hm2⟩ := (h.dirs _).1 ⟨hm, parentPath_join dir n h.ne hn⟩
    have := joinPath_inj dir n m hn (h.plain m hm1) hm2
    exact hna (this ▸ hm1)
  · intro path hp hpar
    exact hna (h.below path hp n hn hpar)

theorem mem_addName (l : List String) (n m : String) :
    m ∈ DataDesign.addName l n ↔ m ∈ l ∨ m = n := by
  unfold DataDesign.addName
  by_cases h : n ∈ l
  · rw [if_pos h]
    constructor
    · exact Or.inl
    · rintro (h' | rfl)
      · exact h'
      · exact h
  · rw [if_neg h]; simp

theorem nodup_addName (l : List String) (n : String) (h : l.Nodup) :
    (DataDesign.addName l n).Nodup := by
  unfold DataDesign.addName
  by_cases hn : n ∈ l
  · rw [if_pos hn]; exact h
  · rw [if_neg hn, List.nodup_append]
    refine ⟨h, by simp, ?_⟩
    intro a ha b hb
    simp only [List.mem_singleton] at hb
    subst hb
    rintro rfl
    exact hn ha

theorem add_new (T : FloatText) (dir : String) (added : List String) (st : DesignState)
    (h : DesignInv dir added st) (ds : DataSet) (hs : Storable T ds) (hn : ds.name ∉ added) :
    st.1.add T st.2 ds = .ok (⟨dir, DataDesign.addName st.1.dataSetNames ds.name⟩,
      ⟨⟨joinPath dir ds.name :: st.2.fs.dirs,
        st.2.fs.files ++ ds.data.map (fileOf T (joinPath dir ds.name))⟩, st.2.cache⟩) := by
  obtain ⟨-, -, hp, hpp, hnd⟩ := hs
  obtain ⟨h1, h2, h3⟩ := h.fresh ds.name hp hn
  unfold DataDesign.add
  rw [h.dirpath, if_neg (by tauto), write_fresh T ds dir st.2.fs hp hpp hnd h1 h3]
  rfl

theorem add_old (T : FloatText) (dir : String) (added : List String) (st : DesignState)
    (h : DesignInv dir added st) (ds : DataSet) (hn : ds.name ∈ added) :
    st.1.add T st.2 ds = .error .valueError := by
  unfold DataDesign.add
  rw [h.dirpath, if_pos]
  exact Or.inl ((h.dirs _).2 ⟨_, hn, rfl⟩).1

theorem mem_fileOf (T : FloatText) (dir : String) (hd : dir ≠ "") (pubs : List PublisherData)
    (hp : ∀ p ∈ pubs, PlainName p.name) (e : String × Text) (he : e ∈ pubs.map (fileOf T dir)) :
    parentPath e.1 = dir := by
  obtain ⟨p, hpm, rfl⟩ := List.mem_map.1 he
  exact parentPath_join dir p.name hd (hp p hpm)

theorem DesignInv.step {T : FloatText} {dir : String} {added : List String} {st : DesignState}
    (h : DesignInv dir added st) (op : DesignOp) (hop : ∀ ds, op = .add ds → Storable T ds) :
    DesignInv dir (added ++ addedNames [op]) (designStep T st op) := by
  cases op with
  | lookup name =>
    have hfs : (st.1.byName T st.2 name).2.fs = st.2.fs := read_fs T st.2 _
    have e : added ++ addedNames [.lookup name] = added := by simp [addedNames]
    rw [e]
    exact ⟨h.dirpath, h.ne, h.nodup, h.names, h.plain, by rw [designStep, hfs]; exact h.dirs,
      by rw [designStep, hfs]; exact h.files, by rw [designStep, hfs]; exact h.below,
      by rw [designStep, hfs]; exact h.here⟩
  | add ds =>
    have hs := hop ds rfl
    have e : added ++ addedNames [.add ds] = added ++ [ds.name] := rfl
    rw [e]
    by_cases hn : ds.name ∈ added
    · have hmem : ∀ m, m ∈ added ++ [ds.name] ↔ m ∈ added := by
        intro m
        simp only [List.mem_append, List.mem_singleton]
        constructor
        · rintro (h | rfl)
          · exact h
          · exact hn
        · exact Or.inl
      rw [designStep, add_old T dir added st h ds hn]
      refine ⟨h.dirpath, h.ne, h.nodup, ?_, ?_, ?_, h.files, ?_, h.here⟩
      · intro n; rw [hmem]; exact h.names n
      · intro n hm; exact h.plain n ((hmem n).1 hm)
      · intro path
        rw [h.dirs path]
        constructor <;> rintro ⟨n, h1, h2⟩
        · exact ⟨n, (hmem n).2 h1, h2⟩
        · exact ⟨n, (hmem n).1 h1, h2⟩
      · intro path hp n hpn hpar
        exact (hmem n).2 (h.below path hp n hpn hpar)
    · rw [designStep, add_new T dir added st h ds hs hn]
      have hp := hs.2.2.1
      have hpp := hs.2.2.2.1
      have hne := joinPath_ne_empty dir ds.name hp
      refine ⟨rfl, h.ne, nodup_addName _ _ h.nodup, ?_, ?_, ?_, ?_, ?_, ?_⟩
      · intro n
        simp only [mem_addName, h.names, List.mem_append, List.mem_singleton]
      · intro n hm
        rcases List.mem_append.1 hm with hm | hm
        · exact h.plain n hm
        · rw [List.mem_singleton] at hm
          exact hm ▸ hp
      · intro path
        simp only [List.mem_cons, List.mem_append, List.not_mem_nil, or_false]
        constructor
        · rintro ⟨rfl | hm, hpar⟩
          · exact ⟨ds.name, Or.inr rfl, rfl⟩
          · obtain ⟨n, h1, h2⟩ := (h.dirs path).1 ⟨hm, hpar⟩
            exact ⟨n, Or.inl h1, h2⟩
        · rintro ⟨n, h1 | rfl, rfl⟩
          · have := (h.dirs _).2 ⟨n, h1, rfl⟩
            exact ⟨Or.inr this.1, this.2⟩
          · exact ⟨Or.inl rfl, parentPath_join dir _ h.ne hp⟩
      · intro path hm
        simp only [List.map_append, List.mem_append] at hm
        rcases hm with hm | hm
        · exact h.files path hm
        · obtain ⟨e, he, rfl⟩ := List.mem_map.1 hm
          rw [mem_fileOf T _ hne _ hpp e he]
          exact joinPath_ne_self _ _ hp
      · intro path hm n hpn hpar
        simp only [List.map_append, List.mem_append, List.mem_cons, List.not_mem_nil,
          or_false] at hm ⊢
        rcases hm with (rfl | hm) | hm | hm
        · rw [parentPath_join dir _ h.ne hp] at hpar
          exact absurd hpar.symm (joinPath_ne_self dir n hpn)
        · exact Or.inl (h.below path (List.mem_append_left _ hm) n hpn hpar)
        · exact Or.inl (h.below path (List.mem_append_right _ hm) n hpn hpar)
        · obtain ⟨e, he, rfl⟩ := List.mem_map.1 hm
          rw [mem_fileOf T _ hne _ hpp e he] at hpar
          exact Or.inr (joinPath_inj dir _ _ hp hpn hpar).symm
      · refine ⟨List.mem_cons_of_mem _ h.here.1, ?_⟩
        simp only [List.map_append, List.mem_append, not_or]
        refine ⟨h.here.2, ?_⟩
        intro hm
        simp only [List.map_map, List.mem_map, Function.comp_apply, fileOf] at hm
        obtain ⟨p, hpm, hpe⟩ := hm
        have hl := congrArg (fun s : String => s.toList.length) hpe
        simp only [joinPath_toList _ _ (hpp p hpm), joinPath_toList _ _ hp] at hl
        simp only [List.length_append, List.length_cons] at hl
        omega

theorem addedNames_append (a b : List DesignOp) :
    addedNames (a ++ b) = addedNames a ++ addedNames b := by
  unfold addedNames; rw [List.filterMap_append]

theorem designRun_append (T : FloatText) (st : DesignState) (a b : List DesignOp) :
    designRun T st (a ++ b) = designRun T (designRun T st a) b := by
  unfold designRun; rw [List.foldl_append]

theorem DesignInv.run {T : FloatText} {dir : String} {added : List String} {st : DesignState}
    (h : DesignInv dir added st) (ops : List DesignOp)
    (hops : ∀ ds, .add ds ∈ ops → Storable T ds) :
    DesignInv dir (added ++ addedNames ops) (designRun T st ops) := by
  induction ops generalizing added st with
  | nil => simpa [designRun, addedNames] using h
  | cons op ops ih =>
    have h1 := h.step (T := T) op (fun ds e => hops ds (by simp [e]))
    have h2 := ih h1 (fun ds hm => hops ds (List.mem_cons_of_mem _ hm))
    rw [List.append_assoc, ← addedNames_append] at h2
    exact h2

theorem EmptyDesign.inv {st : DesignState} (h : EmptyDesign st) :
    DesignInv st.1.dirpath [] st := by
  obtain ⟨h1, h2, ⟨fs, h3⟩, h4⟩ := h
  have hnames : st.1.dataSetNames = [] := by
    unfold DataDesign.new at h3
    cases hmk : fs.mkdir st.1.dirpath with
    | error e => rw [hmk] at h3; simp [bind, Except.bind] at h3
    | ok fs' =>
      rw [hmk] at h3
      simp only [bind, Except.bind, pure, Except.pure, Except.ok.injEq] at h3
      have e1 := congrArg Prod.fst h3
      have e2 := congrArg Prod.snd h3
      simp only at e1 e2
      rw [← e1]
      simp only
      have hg : fs'.glob st.1.dirpath = [] := by
        unfold Fs.glob
        rw [List.filter_eq_nil_iff]
        intro a ha
        have : a ∈ st.2.fs.dirs ++ st.2.fs.files.map (·.1) := by
          rw [← e2]; rw [List.mem_append] at ha ⊢; tauto
        simpa using (h4 a this).1
      rw [hg]
      rfl
  have hhere : st.1.dirpath ∈ st.2.fs.dirs ∧ st.1.dirpath ∉ st.2.fs.files.map (·.1) := by
    unfold DataDesign.new Fs.mkdir at h3
    by_cases a1 : st.1.dirpath ∈ fs.files.map (·.1)
    · rw [if_pos a1] at h3; simp [bind, Except.bind] at h3
    · rw [if_neg a1] at h3
      by_cases a2 : st.1.dirpath ∈ fs.dirs
      · rw [if_pos a2] at h3
        simp only [bind, Except.bind, pure, Except.pure, Except.ok.injEq] at h3
        have e2 := congrArg Prod.snd h3
        simp only at e2
        rw [← e2]
        exact ⟨a2, a1⟩
      · rw [if_neg a2] at h3
        simp only [bind, Except.bind, pure, Except.pure, Except.ok.injEq] at h3
        have e2 := congrArg Prod.snd h3
        simp only at e2
        rw [← e2]
        exact ⟨by simp, a1⟩
  refine ⟨rfl, h1, by simp [hnames], by simp [hnames], by simp, ?_, ?_, ?_, hhere⟩
  · intro path
    constructor
    · rintro ⟨h5, h6⟩
      exact absurd h6 (h4 path (List.mem_append_left _ h5)).1
    · rintro ⟨n, hn, -⟩
      simp at hn
  · intro path hp
    exact (h4 path (List.mem_append_right _ hp)).1
  · intro path hp n hn hpar
    exact absurd hpar ((h4 path hp).2 n hn)

/-! ## The theorems -/

/-- C45 (a): after any sequence of additions and lookups, `names` lists exactly the names added, in
sorted order and without repetition, and `count` is their number. -/
theorem C45_names (T : FloatText) (st : DesignState) (hst : EmptyDesign st)
    (ops : List DesignOp) (hops : ∀ ds, .add ds ∈ ops → Storable T ds) :
    let d := (designRun T st ops).1
    (∀ n, n ∈ d.names ↔ ∃ ds, .add ds ∈ ops ∧ ds.name = n) ∧
    d.names.Nodup ∧ d.names.Pairwise (fun a b => a ≤ b) ∧
    d.count = (d.names).length := by
  have h := hst.inv.run (T := T) ops hops
  rw [List.nil_append] at h
  refine ⟨?_, ?_, sortStrings_pairwise _, ?_⟩
  · intro n
    unfold DataDesign.names
    rw [(sortStrings_perm _).mem_iff, h.names]
    unfold addedNames
    rw [List.mem_filterMap]
    constructor
    · rintro ⟨op, h1, h2⟩
      cases op with
      | add ds => exact ⟨ds, h1, by simpa using h2⟩
      | lookup m => simp at h2
    · rintro ⟨ds, h1, h2⟩
      exact ⟨.add ds, h1, by simp [h2]⟩
  · exact (sortStrings_perm _).nodup_iff.2 h.nodup
  · exact (sortStrings_perm _).length_eq.symm

/-- C45 (b): adding a name that was added before is refused with a `ValueError`, and names, files and
cache stay as they are. -/
theorem C45_write_once (T : FloatText) (st : DesignState) (hst : EmptyDesign st)
    (ops : List DesignOp) (hops : ∀ ds, .add ds ∈ ops → Storable T ds)
    (ds : DataSet) (hds : ∃ ds0, .add ds0 ∈ ops ∧ ds0.name = ds.name) :
    (designRun T st ops).1.add T (designRun T st ops).2 ds = .error .valueError ∧
    designRun T st (ops ++ [.add ds]) = designRun T st ops := by
  have h := hst.inv.run (T := T) ops hops
  rw [List.nil_append] at h
  have hmem : ds.name ∈ addedNames ops := by
    obtain ⟨ds0, h1, h2⟩ := hds
    unfold addedNames
    exact List.mem_filterMap.2 ⟨.add ds0, h1, by simp [h2]⟩
  have := add_old T _ _ _ h ds hmem
  refine ⟨this, ?_⟩
  rw [designRun_append]
  simp only [designRun, List.foldl_cons, List.foldl_nil, designStep]
  unfold designRun at this
  rw [this]

/-- The paths that were looked up. -/
theorem cache_keys_step (T : FloatText) (pr : Process) (dir : String) (e : String × DataSet)
    (h : e ∈ (pr.read T dir).2.cache) : e ∈ pr.cache ∨ e.1 = dir := by
  rcases read_cache_entries T pr dir e h with h | h
  · exact Or.inl h
  · exact Or.inr h.1

theorem add_cache (T : FloatText) (st st' : DesignState) (ds : DataSet)
    (h : st.1.add T st.2 ds = .ok st') : st'.2.cache = st.2.cache ∧ st'.1.dirpath = st.1.dirpath := by
  unfold DataDesign.add at h
  split at h
  · simp at h
  · cases hw : ds.write T st.1.dirpath "" st.2.fs with
    | error e => rw [hw] at h; simp [bind, Except.bind] at h
    | ok fs' =>
      rw [hw] at h
      simp only [bind, Except.bind, pure, Except.pure, Except.ok.injEq] at h
      subst h
      exact ⟨rfl, rfl⟩

theorem run_cache_keys (T : FloatText) (st : DesignState) (hc : st.2.cache = [])
    (ops : List DesignOp) :
    (designRun T st ops).1.dirpath = st.1.dirpath ∧
    ∀ e ∈ (designRun T st ops).2.cache, ∃ m, .lookup m ∈ ops ∧ e.1 = joinPath st.1.dirpath m := by
  induction ops using List.reverseRecOn with
  | nil => simp [designRun, hc]
  | append_singleton ops op ih =>
    rw [designRun_append]
    obtain ⟨ih1, ih2⟩ := ih
    have hweak : ∀ e, e ∈ (designRun T st ops).2.cache →
        ∃ m, .lookup m ∈ ops ++ [op] ∧ e.1 = joinPath st.1.dirpath m := by
      intro e he
      obtain ⟨m, h1, h2⟩ := ih2 e he
      exact ⟨m, List.mem_append_left _ h1, h2⟩
    cases op with
    | lookup name =>
      refine ⟨ih1, ?_⟩
      intro e he
      rcases cache_keys_step T _ _ e he with h | h
      · exact hweak e h
      · rw [ih1] at h
        exact ⟨name, by simp, h⟩
    | add ds =>
      simp only [designRun, List.foldl_cons, List.foldl_nil, designStep]
      cases ha : ((designRun T st ops).1).add T (designRun T st ops).2 ds with
      | error e =>
        unfold designRun at ha
        rw [ha]
        exact ⟨ih1, hweak⟩
      | ok st' =>
        obtain ⟨h1, h2⟩ := add_cache T _ _ _ ha
        unfold designRun at ha
        rw [ha]
        simp only
        rw [h1, h2]
        exact ⟨ih1, hweak⟩

/-- Once a data set is stored and nothing else is cached for it, this stays so. -/
theorem stored_stays (T : FloatText) (dir : String) (n : String) (ds' : DataSet)
    (hn : PlainName n) (ops : List DesignOp) (hops : ∀ ds, .add ds ∈ ops → Storable T ds)
    (added : List String) (st : DesignState) (h : DesignInv dir added st) (hna : n ∈ added)
    (hr : readDataSet T st.2.fs (joinPath dir n) = .ok ds')
    (hc : ∀ e ∈ st.2.cache, e.1 = joinPath dir n → e.2 = ds') :
    readDataSet T (designRun T st ops).2.fs (joinPath dir n) = .ok ds' ∧
    ∀ e ∈ (designRun T st ops).2.cache, e.1 = joinPath dir n → e.2 = ds' := by
  induction ops generalizing added st with
  | nil => exact ⟨hr, hc⟩
  | cons op ops ih =>
    have hstep := h.step (T := T) op (fun ds e => hops ds (by simp [e]))
    refine ih (fun ds hm => hops ds (List.mem_cons_of_mem _ hm)) _ _ hstep
      (List.mem_append_left _ hna) ?_ ?_
    · cases op with
      | lookup name =>
        have hfs : (st.1.byName T st.2 name).2.fs = st.2.fs := read_fs T st.2 _
        rw [designStep, hfs]
        exact hr
      | add ds =>
        have hs := hops ds (by simp)
        by_cases hd : ds.name ∈ added
        · rw [designStep, add_old T dir added st h ds hd]
          exact hr
        · have hp := hs.2.2.1
          have hne := joinPath_ne_empty dir ds.name hp
          have hnn : joinPath dir ds.name ≠ joinPath dir n := by
            intro he
            exact hd (joinPath_inj dir _ _ hp hn he ▸ hna)
          rw [designStep, add_new T dir added st h ds hs hd]
          simp only
          rw [readDataSet_frame]
          · exact hr
          · rw [parentPath_join dir _ h.ne hp]
            exact (joinPath_ne_self dir n hn).symm
          · intro e he
            rw [mem_fileOf T _ hne _ hs.2.2.2.1 e he]
            exact hnn
    · cases op with
      | lookup name =>
        intro e he hk
        rcases read_cache_entries T st.2 _ e he with h' | ⟨h1, h2⟩
        · exact hc e h' hk
        · rw [← h1, hk, hr] at h2
          simpa using h2.symm
      | add ds =>
        have hs := hops ds (by simp)
        by_cases hd : ds.name ∈ added
        · rw [designStep, add_old T dir added st h ds hd]
          exact hc
        · rw [designStep, add_new T dir added st h ds hs hd]
          exact hc

/-- C45 (c): a lookup returns the data set added (first) under that name, provided the name was not
looked up before it was added.  Missing for the full statement: that proviso, see
`C45_full_is_false`. -/
theorem C45_lookup_partial (T : FloatText) (st : DesignState) (hst : EmptyDesign st)
    (pre post : List DesignOp) (ds : DataSet)
    (hops : ∀ d, .add d ∈ pre ++ .add ds :: post → Storable T d)
    (hfirst : ∀ d, .add d ∈ pre → d.name ≠ ds.name)
    (hnot : ∀ m, .lookup m ∈ pre → joinPath st.1.dirpath m ≠ joinPath st.1.dirpath ds.name) :
    ∃ ds', ((designRun T st (pre ++ .add ds :: post)).1.byName T
        (designRun T st (pre ++ .add ds :: post)).2 ds.name).1 = .ok ds' ∧
      ReadBack st.1.dirpath ds ds' := by
  set dir := st.1.dirpath with hdir
  have hinv := hst.inv.run (T := T) pre (fun d hd => hops d (List.mem_append_left _ hd))
  rw [List.nil_append, ← hdir] at hinv
  obtain ⟨hkd, hkeys⟩ := run_cache_keys T st hst.2.1 pre
  set s1 := designRun T st pre with hs1
  have hna : ds.name ∉ addedNames pre := by
    intro hm
    unfold addedNames at hm
    obtain ⟨op, h1, h2⟩ := List.mem_filterMap.1 hm
    cases op with
    | add d => exact hfirst d h1 (by simpa using h2)
    | lookup m => simp at h2
  have hs : Storable T ds := hops ds (by simp)
  have hadd := add_new T dir _ s1 hinv ds hs hna
  obtain ⟨⟨logs, hlog1, hlog2⟩, ⟨u, hu⟩, hp, hpp, hnd⟩ := hs
  have hfr := hinv.fresh ds.name hp hna
  have hne := joinPath_ne_empty dir ds.name hp
  obtain ⟨fs', ds', order, hw, hr, ho1, ho2, ho3, ho4, -, ho6⟩ :=
    C12_round_trip_partial T ds logs hlog1 hlog2 ds.name u hu dir "" (joinPath dir ds.name)
      (by simp) hne (by rw [baseName_join dir _ hp]; exact hp.1) s1.2.fs hfr.2.2 hpp hnd
  rw [write_fresh T ds dir s1.2.fs hp hpp hnd hfr.1 hfr.2.2] at hw
  simp only [Except.ok.injEq] at hw
  have hinv2 := hinv.step (T := T) (.add ds) (fun d e => by
    cases e; exact hops _ (by simp))
  have hst2 : designStep T s1 (.add ds) = (⟨dir, DataDesign.addName s1.1.dataSetNames ds.name⟩,
      ⟨⟨joinPath dir ds.name :: s1.2.fs.dirs,
        s1.2.fs.files ++ ds.data.map (fileOf T (joinPath dir ds.name))⟩, s1.2.cache⟩) := by
    rw [designStep, hadd]
  have hrun : designRun T st (pre ++ .add ds :: post)
      = designRun T (designStep T s1 (.add ds)) post := by
    rw [designRun_append]; rfl
  obtain ⟨hA, hB⟩ := stored_stays T dir ds.name ds' hp post
    (fun d hd => hops d (by simp [hd])) _ _ hinv2
    (List.mem_append_right _ (by simp [addedNames]))
    (by rw [hst2]; simp only; rw [hw]; exact hr)
    (by
      rw [hst2]
      intro e he hk
      obtain ⟨m, h1, h2⟩ := hkeys e he
      exact absurd (h2.symm.trans hk) (hnot m h1))
  rw [← hrun] at hA hB
  refine ⟨ds', ?_, ?_, ho4, order, ho1, ho2, ?_⟩
  · have hd' : (designRun T st (pre ++ .add ds :: post)).1.dirpath = dir :=
      (run_cache_keys T st hst.2.1 _).1
    unfold DataDesign.byName Process.read
    rw [hd']
    split
    · rename_i e he
      obtain ⟨hk, hm⟩ := find?_key _ _ _ he
      simp only
      rw [hB e hm hk]
    · rw [hA]
  · rw [ho6, baseName_join dir _ hp]
  · rw [joinPath_plain dir ds.name hp] at ho3
    exact ho3

/-- C45 as worded about lookups: whatever happened before, a lookup returns what was added. -/
def C45_full : Prop :=
  ∀ (T : FloatText) (st : DesignState), EmptyDesign st →
    ∀ (pre post : List DesignOp) (ds : DataSet),
      (∀ d, .add d ∈ pre ++ .add ds :: post → Storable T d) →
      (∀ d, .add d ∈ pre → d.name ≠ ds.name) →
      ∃ ds', ((designRun T st (pre ++ .add ds :: post)).1.byName T
          (designRun T st (pre ++ .add ds :: post)).2 ds.name).1 = .ok ds' ∧
        ReadBack st.1.dirpath ds ds'

/-- An empty directory with a new design. -/
def exDesign : DesignState := (⟨"/w", []⟩, ⟨⟨["/w"], []⟩, []⟩)

theorem exDesign_empty : EmptyDesign exDesign := by
  refine ⟨by decide, rfl, ⟨⟨[], []⟩, by decide +kernel⟩, ?_⟩
  intro path hp
  have : path = "/w" := by simpa [exDesign] using hp
  subst this
  refine ⟨by decide +kernel, ?_⟩
  intro n hn h
  have e : parentPath "/w" = "/" := by decide +kernel
  rw [e] at h
  have := congrArg (fun s : String => s.toList.length) h
  simp only [joinPath_toList _ _ hn, exDesign] at this
  simp at this

theorem exStore_storable : Storable exText exStoreSet := by
  refine ⟨⟨_, exStore_built, by unfold Printable; decide +kernel⟩, ⟨none, by decide +kernel⟩,
    ⟨by decide, by decide⟩, ?_, by decide⟩
  intro p hp
  simp only [exStoreSet, exStorePubs, List.mem_cons, List.not_mem_nil, or_false] at hp
  rcases hp with rfl | rfl <;> exact ⟨by decide, by decide⟩

/-- C45 as worded is false: after looking up a name that is not there yet (which yields an empty data
set rather than an error), adding it has no effect on later lookups. -/
theorem C45_full_is_false : ¬ C45_full := by
  intro h
  obtain ⟨ds', h1, h2⟩ := h exText exDesign exDesign_empty [.lookup "d"] [] exStoreSet
    (by
      intro d hd
      have : d = exStoreSet := by simpa using hd
      exact this ▸ exStore_storable)
    (by simp)
  obtain ⟨-, -, order, ho1, -, ho3⟩ := h2
  have hr : readDataSet exText ⟨["/w"], []⟩ "/w/d" = .ok ⟨[], 0, "d", 0⟩ := by decide +kernel
  have hj : joinPath "/w" "d" = "/w/d" := by decide +kernel
  have s1 : designStep exText exDesign (.lookup "d")
      = (⟨"/w", []⟩, ⟨⟨["/w"], []⟩, [("/w/d", ⟨[], 0, "d", 0⟩)]⟩) := by
    simp only [designStep, exDesign, DataDesign.byName, Process.read, hj, List.find?_nil, hr]
    rfl
  have hst : designRun exText exDesign ([.lookup "d"] ++ [.add exStoreSet])
      = designStep exText (designStep exText exDesign (.lookup "d")) (.add exStoreSet) := rfl
  rw [hst, s1] at h1
  have hadd : ∃ d fs', designStep exText
      (⟨"/w", []⟩, ⟨⟨["/w"], []⟩, [("/w/d", ⟨[], 0, "d", 0⟩)]⟩) (.add exStoreSet)
      = (⟨"/w", d⟩, ⟨fs', [("/w/d", ⟨[], 0, "d", 0⟩)]⟩) := by
    simp only [designStep]
    split
    · rename_i st' hst'
      obtain ⟨c1, c2⟩ := add_cache exText
        (⟨"/w", []⟩, ⟨⟨["/w"], []⟩, [("/w/d", ⟨[], 0, "d", 0⟩)]⟩) _ _ hst'
      obtain ⟨⟨a, b⟩, ⟨c, d⟩⟩ := st'
      simp only at c1 c2
      subst c1 c2
      exact ⟨_, _, rfl⟩
    · exact ⟨_, _, rfl⟩
  obtain ⟨d, fs', hadd⟩ := hadd
  rw [hadd] at h1
  have hname : exStoreSet.name = "d" := rfl
  simp only [DataDesign.byName, Process.read, hname, hj, List.find?_cons, decide_true,
    Except.ok.injEq] at h1
  subst h1
  have : order = [] := List.forall₂_nil_right_iff.1 ho3
  subst this
  exact absurd ho1.length_eq (by decide)

theorem foldl_addName_mem (l acc : List String) (n : String) :
    n ∈ l.foldl DataDesign.addName acc ↔ n ∈ acc ∨ n ∈ l := by
  induction l generalizing acc with
  | nil => simp
  | cons a l ih =>
    rw [List.foldl_cons, ih, mem_addName]
    simp only [List.mem_cons]
    tauto

theorem foldl_addName_nodup (l acc : List String) (h : acc.Nodup) :
    (l.foldl DataDesign.addName acc).Nodup := by
  induction l generalizing acc with
  | nil => exact h
  | cons a l ih => exact ih _ (nodup_addName _ _ h)

/-- C45 (d): the names survive: a design opened later on the same directory lists the same names, and
opening it changes no file. -/
theorem C45_reopen (T : FloatText) (st : DesignState) (hst : EmptyDesign st)
    (ops : List DesignOp) (hops : ∀ ds, .add ds ∈ ops → Storable T ds) :
    ∃ d', DataDesign.new st.1.dirpath (designRun T st ops).2.fs
        = .ok (d', (designRun T st ops).2.fs) ∧
      d'.names = (designRun T st ops).1.names ∧ d'.count = (designRun T st ops).1.count := by
  have h := hst.inv.run (T := T) ops hops
  rw [List.nil_append] at h
  generalize designRun T st ops = s at h
  generalize st.1.dirpath = dir at h
  have hmk : s.2.fs.mkdir dir = .ok s.2.fs := by
    unfold Fs.mkdir
    rw [if_neg h.here.2, if_pos h.here.1]
  have hmem : ∀ n, n ∈ ((((sortStrings (s.2.fs.glob dir)).filter
      (fun p => p ∈ s.2.fs.dirs)).map baseName).foldl DataDesign.addName []) ↔
        n ∈ s.1.dataSetNames := by
    intro n
    rw [foldl_addName_mem, h.names]
    simp only [List.not_mem_nil, false_or, List.mem_map, List.mem_filter, decide_eq_true_eq,
      (sortStrings_perm _).mem_iff]
    constructor
    · rintro ⟨path, ⟨h1, h2⟩, rfl⟩
      unfold Fs.glob at h1
      simp only [List.mem_filter, decide_eq_true_eq] at h1
      obtain ⟨m, hm1, rfl⟩ := (h.dirs path).1 ⟨h2, h1.2⟩
      rw [baseName_join dir m (h.plain m hm1)]
      exact hm1
    · intro hn
      have hd := (h.dirs _).2 ⟨n, hn, rfl⟩
      refine ⟨joinPath dir n, ⟨?_, hd.1⟩, baseName_join dir n (h.plain n hn)⟩
      unfold Fs.glob
      simp only [List.mem_filter, decide_eq_true_eq]
      exact ⟨List.mem_append_right _ hd.1, hd.2⟩
  have hperm := (List.perm_ext_iff_of_nodup (foldl_addName_nodup _ [] List.nodup_nil)
    h.nodup).2 hmem
  refine ⟨_, by unfold DataDesign.new; simp only [hmk, bind, Except.bind]; rfl, ?_, ?_⟩
  · unfold DataDesign.names
    refine List.Perm.eq_of_pairwise (le := fun a b => a ≤ b)
      (fun a b _ _ h h' => le_antisymm h h') (sortStrings_pairwise _) (sortStrings_pairwise _) ?_
    exact (sortStrings_perm _).trans (hperm.trans (sortStrings_perm _).symm)
  · exact hperm.length_eq

/-- The hypotheses of the theorems above with two additions of the same name and a lookup. -/
example : ∀ ds, DesignOp.add ds ∈ [.add exStoreSet, .lookup "d", .add exStoreSet] →
    Storable exText ds := by
  intro d hd
  have : d = exStoreSet := by simpa using hd
  exact this ▸ exStore_storable

example : (designRun exText exDesign [.add exStoreSet, .lookup "d", .add exStoreSet]).1
    = ⟨"/w", ["d"]⟩ := by decide +kernel

/-- An unknown name is not refused: it reads as a data set without publishers. -/
theorem C45_unknown_name :
    (exDesign.1.byName exText exDesign.2 "nonsense").1 = .ok ⟨[], 0, "nonsense", 0⟩ := by
  decide +kernel

end Verif
