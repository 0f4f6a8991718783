import Verif.Lemmas.Storage
import Verif.Props.DataSet

/-!
# C12, C57, C67: the data set directory
-/

namespace Verif

open Verif.Spec

/-- `q` is `p` after a round trip through the directory `dir`: same log in spend order, same totals,
the name replaced by the path, and the spends now in sorted order. -/
def SamePublisher (dir : String) (p q : PublisherData) : Prop :=
  q.data = p.data ∧ q.maxSpend = p.maxSpend ∧ q.maxReach = p.maxReach ∧
    q.name = dir ++ "/" ++ p.name ∧ ∃ log, p.data = sortBySpend log ∧ Built (sortBySpend log) q

/-- The directory has no entries yet, and it is not a regular file. -/
def FreshDir (fs : Fs) (dir : String) : Prop :=
  dir ∉ fs.files.map (·.1) ∧ ∀ path ∈ fs.dirs ++ fs.files.map (·.1), parentPath path ≠ dir

/-! ## C12 -/

theorem forall₂_map_left_iff' {α β γ : Type} {R : β → γ → Prop} {f : α → β} {l : List α}
    {u : List γ} : List.Forall₂ R (l.map f) u ↔ List.Forall₂ (fun a c => R (f a) c) l u :=
  List.forall₂_map_left_iff

theorem exists_forall₂ {α β : Type} {R : α → β → Prop} (l : List α) (h : ∀ a ∈ l, ∃ b, R a b) :
    ∃ u, List.Forall₂ R l u := by
  induction l with
  | nil => exact ⟨[], .nil⟩
  | cons a l ih =>
    obtain ⟨b, hb⟩ := h a (by simp)
    obtain ⟨u, hu⟩ := ih (fun x hx => h x (List.mem_cons_of_mem _ hx))
    exact ⟨b :: u, .cons hb hu⟩

/-- C12: with pairwise distinct plain publisher names and a fresh directory, writing and reading
back succeeds and gives the same publishers in the order of their names, named by their paths; the
universe size becomes twice the number of distinct users.  Missing for the full statement: the
order of the publishers, publishers with equal names, and a universe size given explicitly. -/
theorem C12_round_trip_partial (T : FloatText) (ds : DataSet) (logs : List Log)
    (hb : List.Forall₂ Built logs ds.data) (hT : ∀ log ∈ logs, ∀ e ∈ log, Printable T e.2)
    (name : String) (u : Option Int) (hds : DataSet.new ds.data name u = .ok ds)
    (parent sub full : String)
    (hfull : full = joinPath parent (if sub = "" then ds.name else sub))
    (hne : full ≠ "") (hbase : baseName full ≠ "")
    (fs : Fs) (hfresh : FreshDir fs full)
    (hplain : ∀ p ∈ ds.data, PlainName p.name) (hnodup : (ds.data.map (·.name)).Nodup) :
    ∃ fs' ds' order, ds.write T parent sub fs = .ok fs' ∧ readDataSet T fs' full = .ok ds' ∧
      order.Perm ds.data ∧ order.Pairwise (fun p q => p.name ≤ q.name) ∧
      List.Forall₂ (SamePublisher full) order ds'.data ∧
      ds'.maximumReach = ds.maximumReach ∧ ds'.universeSize = 2 * (ds.maximumReach : Int) ∧
      ds'.name = baseName full := by
  -- writing
  have hmk : ∃ fs1, fs.mkdir full = .ok fs1 ∧ full ∈ fs1.dirs ∧ fs1.files = fs.files ∧
      ∀ x ∈ fs1.dirs, x = full ∨ x ∈ fs.dirs := by
    unfold Fs.mkdir
    rw [if_neg hfresh.1]
    by_cases h : full ∈ fs.dirs
    · exact ⟨fs, by rw [if_pos h], h, rfl, fun x hx => Or.inr hx⟩
    · refine ⟨{ fs with dirs := full :: fs.dirs }, by rw [if_neg h], by simp, rfl, ?_⟩
      intro x hx
      simpa using hx
  obtain ⟨fs1, hm1, hm2, hm3, hm4⟩ := hmk
  have hnot : ∀ p ∈ ds.data, joinPath full p.name ∉ fs.dirs ∧
      joinPath full p.name ∉ fs.files.map (·.1) := by
    intro p hp
    have hpar := parentPath_join full p.name hne (hplain p hp)
    constructor
    · intro h
      exact hfresh.2 _ (List.mem_append_left _ h) hpar
    · intro h
      exact hfresh.2 _ (List.mem_append_right _ h) hpar
  have hw := writeFiles_ok T full hne ds.data fs1 hm2 hplain hnodup (by
    intro p hp
    rw [hm3]
    refine ⟨?_, (hnot p hp).2⟩
    intro h
    rcases hm4 _ h with h | h
    · exact joinPath_ne_self full p.name (hplain p hp) h
    · exact (hnot p hp).1 h)
  set fs2 : Fs := { fs1 with files := fs1.files ++ ds.data.map (fileOf T full) } with hfs2
  -- contents
  have hkeys : ((ds.data.map (fileOf T full)).map (·.1)).Nodup := by
    rw [List.map_map]
    have h1 : ds.data.map ((·.1) ∘ fileOf T full)
        = (ds.data.map (·.name)).map (joinPath full) := by
      rw [List.map_map]; rfl
    rw [h1]
    refine List.Nodup.map_on ?_ hnodup
    intro a ha b hb' hab
    obtain ⟨p, hp, rfl⟩ := List.mem_map.1 ha
    obtain ⟨q, hq, rfl⟩ := List.mem_map.1 hb'
    exact joinPath_inj full _ _ (hplain p hp) (hplain q hq) hab
  have hcontent : ∀ p ∈ ds.data, fs2.contentOf (joinPath full p.name) = some (p.write T) := by
    intro p hp
    unfold Fs.contentOf
    rw [hfs2]
    simp only
    rw [hm3, dictLookup_append_right _ _ _ (hnot p hp).2,
      dictLookup_mem _ hkeys _ (p.write T) (List.mem_map.2 ⟨p, hp, rfl⟩)]
  have hnofull : fs2.contentOf full = none := by
    unfold Fs.contentOf
    rw [hfs2]
    simp only
    rw [hm3, dictLookup_absent]
    simp only [List.map_append, List.mem_append, not_or]
    refine ⟨hfresh.1, ?_⟩
    intro h
    simp only [List.map_map, List.mem_map, Function.comp_apply, fileOf] at h
    obtain ⟨p, hp, hpe⟩ := h
    exact joinPath_ne_self full p.name (hplain p hp) hpe
  have hglob : ((fs2.glob full).filter (fun path => (fs2.contentOf path).isSome))
      = ds.data.map (fun p => joinPath full p.name) := by
    unfold Fs.glob
    rw [hfs2]
    simp only [List.map_append, List.filter_append]
    have e1 : (fs1.files.map (·.1)).filter (fun p => decide (parentPath p = full)) = [] := by
      rw [List.filter_eq_nil_iff, hm3]
      intro a ha
      simpa using hfresh.2 a (List.mem_append_right _ ha)
    have e2 : ((ds.data.map (fileOf T full)).map (·.1)).filter
        (fun p => decide (parentPath p = full)) = ds.data.map (fun p => joinPath full p.name) := by
      rw [List.filter_eq_self.2]
      · rw [List.map_map]; rfl
      · intro a ha
        simp only [List.map_map, List.mem_map, Function.comp_apply, fileOf] at ha
        obtain ⟨p, hp, rfl⟩ := ha
        simpa using parentPath_join full p.name hne (hplain p hp)
    have e3 : (fs1.dirs.filter (fun p => decide (parentPath p = full))).filter
        (fun path => (fs2.contentOf path).isSome) = [] := by
      rw [List.filter_eq_nil_iff]
      intro a ha
      simp only [List.mem_filter, decide_eq_true_eq] at ha
      rcases hm4 a ha.1 with rfl | h
      · simp [hnofull]
      · exact absurd ha.2 (hfresh.2 a (List.mem_append_left _ h))
    rw [e1, e2]
    rw [hfs2] at e3
    rw [e3]
    simp only [List.filter_nil, List.nil_append, List.append_nil]
    rw [List.filter_eq_self]
    intro a ha
    obtain ⟨p, hp, rfl⟩ := List.mem_map.1 ha
    have := hcontent p hp
    rw [hfs2] at this
    simp [this]
  -- the sorted listing
  have hsorted : (sortStrings (fs2.glob full)).filter (fun path => (fs2.contentOf path).isSome)
      = (byName ds.data).map (fun p => joinPath full p.name) := by
    refine List.Perm.eq_of_pairwise (le := fun a b => a ≤ b) (fun a b _ _ h h' => le_antisymm h h') ?_ ?_ ?_
    · exact (sortStrings_pairwise _).filter _
    · rw [List.pairwise_map]
      refine (byName_pairwise ds.data).imp_of_mem ?_
      intro p q hp hq h
      exact (joinPath_le_iff full _ _ (hplain p ((byName_perm _).mem_iff.1 hp))
        (hplain q ((byName_perm _).mem_iff.1 hq))).2 h
    · refine ((sortStrings_perm _).filter _).trans ?_
      rw [hglob]
      exact (byName_perm _).symm.map _
  -- reading
  have hlog : ∀ p ∈ ds.data, ∃ log ∈ logs, Built log p := by
    intro p hp
    obtain ⟨i, hi, rfl⟩ := List.getElem_of_mem hp
    have hlen := hb.length_eq
    exact ⟨logs[i], List.getElem_mem (by omega), (List.forall₂_iff_get.1 hb).2 i (by omega) hi⟩
  have hread : ∀ p ∈ byName ds.data, ∃ q', (∃ content q,
      fs2.contentOf (joinPath full p.name) = some content ∧
      readPublisherData T content "" = .ok q ∧ q' = { q with name := joinPath full p.name }) ∧
      SamePublisher full p q' := by
    intro p hp
    have hp' := (byName_perm _).mem_iff.1 hp
    obtain ⟨log, hl, hbl⟩ := hlog p hp'
    obtain ⟨nm, rnd, hnew⟩ := hbl
    obtain ⟨q, h1, h2, h3, h4, -, -, -, -, h8⟩ :=
      C05_round_trip_partial T log nm rnd "" p hnew (hT log hl)
    refine ⟨{ q with name := joinPath full p.name },
      ⟨_, q, hcontent p hp', h1, rfl⟩, h2, h3, h4, joinPath_plain full p.name (hplain p hp'), log, ?_, ?_⟩
    · exact (show Built log p from ⟨nm, rnd, hnew⟩).data_eq
    · obtain ⟨nm', rnd', h8⟩ := h8
      obtain ⟨m, hm, rfl⟩ := (new_ok_iff _ _ _ _).1 h8
      refine ⟨joinPath full p.name, "", (new_ok_iff _ _ _ _).2 ⟨m, hm, ?_⟩⟩
      have : joinPath full p.name ≠ "" := by
        intro h
        have := congrArg String.toList h
        rw [joinPath_toList full p.name (hplain p hp')] at this
        simp at this
      simp [this]
  obtain ⟨ps, hps⟩ := exists_forall₂ (byName ds.data) hread
  have hrf : readFiles T fs2 (sortStrings (fs2.glob full)) = .ok ps := by
    apply readFiles_ok
    rw [hsorted, List.forall₂_map_left_iff]
    exact hps.imp (fun p q h => h.1)
  have hsame : List.Forall₂ (SamePublisher full) (byName ds.data) ps := hps.imp (fun p q h => h.2)
  have haud : DataSet.totalAudience ps = DataSet.totalAudience ds.data := by
    unfold DataSet.totalAudience lenSet
    have h1 : ps.flatMap (fun p => p.data.map (·.1))
        = (byName ds.data).flatMap (fun p => p.data.map (·.1)) := by
      have : ∀ {l l' : List PublisherData}, List.Forall₂ (SamePublisher full) l l' →
          l'.flatMap (fun p => p.data.map (·.1)) = l.flatMap (fun p => p.data.map (·.1)) := by
        intro l l' h
        induction h with
        | nil => rfl
        | cons h _ ih => simp only [List.flatMap_cons, ih, h.1]
      exact this hsame
    rw [h1]
    exact ((byName_perm ds.data).flatMap_right _).dedup.length_eq
  have hmax : ds.maximumReach = DataSet.totalAudience ds.data := by
    unfold DataSet.new at hds
    split at hds
    · simp at hds
    · simp only [Except.ok.injEq] at hds
      rw [← hds]
  refine ⟨fs2, ⟨ps, DataSet.totalAudience ps, baseName full, 2 * (DataSet.totalAudience ps : Int)⟩,
    byName ds.data, ?_, ?_, byName_perm _, byName_pairwise _, hsame, ?_, ?_, rfl⟩
  · unfold DataSet.write
    rw [← hfull]
    simp only [hm1, bind, Except.bind]
    exact hw
  · unfold readDataSet
    rw [hrf]
    simp only [bind, Except.bind]
    unfold DataSet.new
    rw [if_neg hbase]
  · rw [hmax]; exact haud
  · rw [hmax]; simp only [haud]

theorem total_by_publishers {logs : List Log} {pubs : List PublisherData}
    (hb : List.Forall₂ Built logs pubs) (buy : PublisherData → Nat) (u : Int) :
    (totalAtImpressions logs (pubs.map buy) u : Int)
      = (pubs.map (fun p => dictGet (p.userCountsByImpressions (buy p : Int)) u)).sum := by
  unfold totalAtImpressions
  induction hb with
  | nil => rfl
  | cons h _ ih =>
    simp only [List.map_cons, List.zip_cons_cons, List.sum_cons, Nat.cast_add, ih]
    rw [h.counts_impressions _ |>.2.2 u]

theorem total_spend_by_publishers {logs : List Log} {pubs : List PublisherData}
    (hb : List.Forall₂ Built logs pubs) (pay : PublisherData → ℚ) (u : Int) :
    (totalAtSpend logs (pubs.map pay) u : Int)
      = (pubs.map (fun p => dictGet (p.userCountsBySpend (pay p)) u)).sum := by
  unfold totalAtSpend
  induction hb with
  | nil => rfl
  | cons h _ ih =>
    simp only [List.map_cons, List.zip_cons_cons, List.sum_cons, Nat.cast_add, ih]
    rw [(h.counts_spend _).2.2.1 u]

theorem samePublisher_built {dir : String} {l l' : List PublisherData}
    (h : List.Forall₂ (SamePublisher dir) l l') :
    List.Forall₂ Built (l'.map (·.data)) l' := by
  induction h with
  | nil => exact .nil
  | cons h _ ih =>
    refine .cons ?_ ih
    obtain ⟨h1, -, -, -, log, h2, h3⟩ := h
    beta_reduce
    rw [h1, h2]
    exact h3

/-- C12: after the round trip the same purchase per publisher gives the same k+ reaches, for
impressions and for spends; publishers are matched through the order by name. -/
theorem C12_same_reach (ds ds' : DataSet) (logs : List Log)
    (hb : List.Forall₂ Built logs ds.data) (dir : String) (order : List PublisherData)
    (hperm : order.Perm ds.data) (hsame : List.Forall₂ (SamePublisher dir) order ds'.data)
    (F k : Nat) (hk : 1 ≤ k) (hF : k ≤ F) :
    (∀ buy : String → Nat, ∃ r r',
      ds.reachByImpressions (ds.data.map (fun p => (buy p.name : Int))) F = .ok r ∧
      ds'.reachByImpressions (order.map (fun p => (buy p.name : Int))) F = .ok r' ∧
      r'.reach k = r.reach k ∧ ∃ x, r.reach k = .ok x) ∧
    (∀ pay : String → ℚ, ∃ r r',
      ds.reachBySpend (ds.data.map (fun p => pay p.name)) F = .ok r ∧
      ds'.reachBySpend (order.map (fun p => pay p.name)) F = .ok r' ∧
      r'.reach k = r.reach k ∧ ∃ x, r.reach k = .ok x) := by
  have hb' := samePublisher_built hsame
  have hlen : order.length = ds'.data.length := hsame.length_eq
  constructor
  · intro buy
    obtain ⟨r, hr, -, -, hk1, -⟩ := C07_reach_by_impressions ds logs hb
      (ds.data.map (fun p => buy p.name)) (by simp [hb.length_eq]) F (by omega)
    obtain ⟨r', hr', -, -, hk1', -⟩ := C07_reach_by_impressions ds' _ hb'
      (order.map (fun p => buy p.name)) (by simp [hlen]) F (by omega)
    rw [List.map_map] at hr hr'
    refine ⟨r, r', hr, hr', ?_, _, hk1 k hk hF⟩
    rw [hk1 k hk hF, hk1' k hk hF]
    have : totalAtImpressions (ds'.data.map (·.data)) (order.map (fun p => buy p.name))
        = totalAtImpressions logs (ds.data.map (fun p => buy p.name)) := by
      funext u
      have h1 := total_by_publishers hb (fun p => buy p.name) u
      have h2 : (totalAtImpressions (ds'.data.map (·.data)) (order.map (fun p => buy p.name)) u : Int)
          = (order.map (fun p => dictGet (p.userCountsByImpressions (buy p.name : Int)) u)).sum := by
        clear hr hr' hk1 hk1' h1 hperm hlen
        generalize ds'.data = pubs' at hsame hb'
        unfold totalAtImpressions
        induction hsame with
        | nil => rfl
        | cons h _ ih =>
          cases hb' with
          | cons hb1 hb2 =>
            simp only [List.map_cons, List.zip_cons_cons, List.sum_cons, Nat.cast_add, ih hb2]
            rw [← hb1.counts_impressions _ |>.2.2 u]
            simp only [PublisherData.userCountsByImpressions, h.1]
      have h3 := (hperm.map (fun p => dictGet (p.userCountsByImpressions (buy p.name : Int)) u)).sum_eq
      omega
    rw [this]
  · intro pay
    obtain ⟨r, hr, -, -, -, hk1, -⟩ := C08_reach_by_spend ds logs hb
      (ds.data.map (fun p => pay p.name)) (by simp [hb.length_eq]) F (by omega)
    obtain ⟨r', hr', -, -, -, hk1', -⟩ := C08_reach_by_spend ds' _ hb'
      (order.map (fun p => pay p.name)) (by simp [hlen]) F (by omega)
    refine ⟨r, r', hr, hr', ?_, _, hk1 k hk hF⟩
    rw [hk1 k hk hF, hk1' k hk hF]
    have : totalAtSpend (ds'.data.map (·.data)) (order.map (fun p => pay p.name))
        = totalAtSpend logs (ds.data.map (fun p => pay p.name)) := by
      funext u
      have h1 := total_spend_by_publishers hb (fun p => pay p.name) u
      have h2 : (totalAtSpend (ds'.data.map (·.data)) (order.map (fun p => pay p.name)) u : Int)
          = (order.map (fun p => dictGet (p.userCountsBySpend (pay p.name)) u)).sum := by
        clear hr hr' hk1 hk1' h1 hperm hlen
        generalize ds'.data = pubs' at hsame hb'
        unfold totalAtSpend
        induction hsame with
        | nil => rfl
        | cons h _ ih =>
          cases hb' with
          | cons hb1 hb2 =>
            simp only [List.map_cons, List.zip_cons_cons, List.sum_cons, Nat.cast_add, ih hb2]
            rw [← (hb1.counts_spend _).2.2.1 u]
            simp only [PublisherData.userCountsBySpend, h.1]
      have h3 := (hperm.map (fun p => dictGet (p.userCountsBySpend (pay p.name)) u)).sum_eq
      omega
    rw [this]

/-- C12 as worded: a data set written to a fresh directory and read back answers every query
identically. -/
def C12_full : Prop :=
  ∀ (T : FloatText) (ds : DataSet) (logs : List Log) (name : String) (u : Option Int)
    (parent : String) (fs fs' : Fs),
    List.Forall₂ Built logs ds.data → (∀ log ∈ logs, ∀ e ∈ log, Printable T e.2) →
    DataSet.new ds.data name u = .ok ds → FreshDir fs (joinPath parent name) →
    (∀ p ∈ ds.data, PlainName p.name) → ds.write T parent "" fs = .ok fs' →
    ∃ ds', readDataSet T fs' (joinPath parent name) = .ok ds' ∧
      ∀ v F, ds'.reachByImpressions v F = ds.reachByImpressions v F

/-- Publisher "2" with one user, publisher "10" with two. -/
def exStorePubs : List PublisherData :=
  [⟨[(1, 1)], [1], 1, 1, "2"⟩, ⟨[(2, 1), (3, 2)], [1, 2], 2, 2, "10"⟩]

def exStoreSet : DataSet := ⟨exStorePubs, 3, "d", 6⟩

/-- An empty file system. -/
def exFs : Fs := ⟨[], []⟩

theorem exStore_built : List.Forall₂ Built [[(1, 1)], [(2, 1), (3, 2)]] exStoreSet.data :=
  .cons ⟨"2", "", by decide +kernel⟩ (.cons ⟨"10", "", by decide +kernel⟩ .nil)

/-- The result of writing and reading, if both succeed. -/
def rewritten (ds : DataSet) (fs : Fs) : Except PyErr DataSet := do
  let fs' ← ds.write exText "/w" "" fs
  readDataSet exText fs' "/w/d"

/-- C12: publishers come back in the order of their names as text, so "10" comes before "2" and a
purchase vector means something else. -/
theorem C12_reordered :
    ∃ ds', rewritten exStoreSet exFs = .ok ds' ∧
      ds'.data.map (·.name) = ["/w/d/10", "/w/d/2"] ∧
      (exStoreSet.reachByImpressions [0, 2] 1).bind (fun r => r.reach 1) = .ok 2 ∧
      (ds'.reachByImpressions [0, 2] 1).bind (fun r => r.reach 1) = .ok 1 := by
  refine ⟨⟨[⟨[(2, 1), (3, 2)], [1, 2], 2, 2, "/w/d/10"⟩, ⟨[(1, 1)], [1], 1, 1, "/w/d/2"⟩], 3, "d", 6⟩,
    ?_, ?_, ?_, ?_⟩ <;> decide +kernel

/-- C12: of two publishers with the same name only the last survives. -/
theorem C12_duplicate_names :
    ∃ ds', rewritten ⟨[⟨[(1, 1)], [1], 1, 1, "a"⟩, ⟨[(2, 1), (3, 2)], [1, 2], 2, 2, "a"⟩], 3, "d", 6⟩
        exFs = .ok ds' ∧ ds'.data.map (·.maxReach) = [2] := by
  refine ⟨⟨[⟨[(2, 1), (3, 2)], [1, 2], 2, 2, "/w/d/a"⟩], 2, "d", 4⟩, ?_, ?_⟩ <;> decide +kernel

/-- C12: files already in the directory become additional publishers. -/
theorem C12_stale_files :
    ∃ ds', rewritten exStoreSet ⟨["/w/d"], [("/w/d/old", "7,1\n".toList)]⟩ = .ok ds' ∧
      ds'.data.map (·.name) = ["/w/d/10", "/w/d/2", "/w/d/old"] := by
  refine ⟨⟨[⟨[(2, 1), (3, 2)], [1, 2], 2, 2, "/w/d/10"⟩, ⟨[(1, 1)], [1], 1, 1, "/w/d/2"⟩,
    ⟨[(7, 1)], [1], 1, 1, "/w/d/old"⟩], 4, "d", 8⟩, ?_, ?_⟩ <;> decide +kernel

/-- C12: a directory that does not exist reads as a data set without publishers, not as an error. -/
theorem C12_missing_directory (T : FloatText) (fs : Fs) (dir : String) (hbase : baseName dir ≠ "")
    (hno : ∀ path ∈ fs.dirs ++ fs.files.map (·.1), parentPath path ≠ dir) :
    readDataSet T fs dir = .ok ⟨[], 0, baseName dir, 0⟩ := by
  have : fs.glob dir = [] := by
    unfold Fs.glob
    rw [List.filter_eq_nil_iff]
    intro a ha
    have : a ∈ fs.dirs ++ fs.files.map (·.1) := by
      rw [List.mem_append] at ha ⊢; exact ha.symm
    simpa using hno a this
  unfold readDataSet
  rw [this]
  simp only [sortStrings, List.insertionSort, List.foldr_nil, readFiles, bind, Except.bind]
  unfold DataSet.new
  rw [if_neg hbase]
  rfl

/-- C12: a malformed publisher file makes reading the directory fail; it is not left out. -/
theorem C12_malformed_file (T : FloatText) (fs : Fs) (dir path : String) (content : Text)
    (hpath : path ∈ fs.glob dir) (hc : fs.contentOf path = some content) (err : PyErr)
    (hbad : readPublisherData T content "" = .error err) :
    readDataSet T fs dir = .error .runtimeError := by
  have key : ∀ l : List String, path ∈ l → readFiles T fs l = .error .runtimeError := by
    intro l hl
    induction l with
    | nil => simp at hl
    | cons a l ih =>
      rw [readFiles]
      rcases List.mem_cons.1 hl with rfl | hl
      · rw [hc]
        simp only [hbad]
      · rw [ih hl]
        cases fs.contentOf a with
        | none => rfl
        | some content' =>
          simp only
          cases readPublisherData T content' "" <;> rfl
  unfold readDataSet
  rw [key _ ((sortStrings_perm _).mem_iff.2 hpath)]
  rfl

/-- C12: a publisher name that leads into a directory that does not exist makes writing fail, unless
an earlier publisher already made it fail. -/
theorem C12_name_in_missing_directory (T : FloatText) (dir : String) (pubs : List PublisherData)
    (fs : Fs) (p : PublisherData) (hp : p ∈ pubs) (h1 : joinPath dir p.name ∉ fs.dirs)
    (h2 : parentPath (joinPath dir p.name) ∉ fs.dirs) :
    ∃ err, writeFiles T dir pubs fs = .error err := by
  induction pubs generalizing fs with
  | nil => simp at hp
  | cons q pubs ih =>
    rw [writeFiles]
    cases hw : fs.writeFile (joinPath dir q.name) (q.write T) with
    | error e => exact ⟨e, rfl⟩
    | ok fs1 =>
      simp only [bind, Except.bind]
      have hd : fs1.dirs = fs.dirs ∧ joinPath dir q.name ∉ fs.dirs ∧
          parentPath (joinPath dir q.name) ∈ fs.dirs := by
        unfold Fs.writeFile at hw
        split at hw
        · simp at hw
        · split at hw
          · simp at hw
          · rename_i g1 g2
            simp only [Except.ok.injEq] at hw
            rw [← hw]
            exact ⟨rfl, g1, by simpa using g2⟩
      rcases List.mem_cons.1 hp with rfl | hp
      · exact absurd hd.2.2 h2
      · exact ih fs1 hp (by rw [hd.1]; exact h1) (by rw [hd.1]; exact h2)

example : (⟨["/w/d"], [("/w/d/a", "1;1".toList)]⟩ : Fs).glob "/w/d" = ["/w/d/a"] ∧
    readPublisherData exText "1;1".toList "" = .error (.atLine 1) := by decide +kernel

example : parentPath (joinPath "/x/e" "w/d/a") ∉ (⟨["/x/e"], []⟩ : Fs).dirs := by decide +kernel

/-- C12 as worded is false. -/
theorem C12_full_is_false : ¬ C12_full := by
  intro h
  obtain ⟨ds', h1, h2⟩ := h exText exStoreSet _ "d" none "/w" exFs
    ⟨["/w/d"], [("/w/d/2", "1,1\n".toList), ("/w/d/10", "2,1\n3,2\n".toList)]⟩ exStore_built
    (by unfold Printable; decide +kernel) (by decide +kernel)
    (by unfold FreshDir; decide +kernel) (by unfold PlainName; decide +kernel) (by decide +kernel)
  obtain ⟨ds'', g1, -, g2, g3⟩ := C12_reordered
  have : rewritten exStoreSet exFs = readDataSet exText
      ⟨["/w/d"], [("/w/d/2", "1,1\n".toList), ("/w/d/10", "2,1\n3,2\n".toList)]⟩ "/w/d" := by
    decide +kernel
  rw [this] at g1
  have e : joinPath "/w" "d" = "/w/d" := by decide +kernel
  rw [e, g1] at h1
  simp only [Except.ok.injEq] at h1
  subst h1
  rw [h2 [0, 2] 1, g2] at g3
  simp at g3

example : ∃ fs' ds' order, exStoreSet.write exText "/w" "" exFs = .ok fs' ∧
    readDataSet exText fs' "/w/d" = .ok ds' ∧ order.Perm exStoreSet.data ∧
    List.Forall₂ (SamePublisher "/w/d") order ds'.data := by
  obtain ⟨fs', ds', order, h1, h2, h3, -, h4, -⟩ := C12_round_trip_partial exText exStoreSet _
    exStore_built (by unfold Printable; decide +kernel) "d" none (by decide +kernel) "/w" "" "/w/d"
    (by decide +kernel) (by decide +kernel) (by decide +kernel) exFs
    (by unfold FreshDir; decide +kernel) (by unfold PlainName; decide +kernel) (by decide +kernel)
  exact ⟨fs', ds', order, h1, h2, h3, h4⟩

/-! ## C67 -/

/-- C67 as worded: reading a data set and writing it to another directory leaves the old directory
alone and creates a copy from which the same publishers can be read. -/
def C67_full : Prop :=
  ∀ (T : FloatText) (fs fs' : Fs) (ds : DataSet) (old parent sub : String),
    readDataSet T fs old = .ok ds → FreshDir fs (joinPath parent sub) →
    ds.write T parent sub fs = .ok fs' →
    ∃ ds', readDataSet T fs' (joinPath parent sub) = .ok ds' ∧
      ds'.data.map (·.data) = ds.data.map (·.data)

/-- C67: if the publisher names are absolute paths, which is what reading an absolute directory
produces, then writing goes to those paths, wherever the data set is asked to be written: no path
outside them changes. -/
theorem C67_absolute_names_partial (T : FloatText) (dir : String) (pubs : List PublisherData)
    (fs fs' : Fs) (habs : ∀ p ∈ pubs, p.name.toList.head? = some '/')
    (hw : writeFiles T dir pubs fs = .ok fs') (path : String)
    (hpath : ∀ p ∈ pubs, p.name ≠ path) : fs'.contentOf path = fs.contentOf path := by
  have hupd : ∀ (d : Dict String Text) (k : String) (f : Option Text → Text), k ≠ path →
      dictLookup (dictUpd d k f) path = dictLookup d path := by
    intro d k f hk
    induction d with
    | nil => simp [dictUpd, dictLookup, hk]
    | cons e d ih =>
      obtain ⟨k', v⟩ := e
      rw [dictUpd]
      by_cases h : k' = k
      · subst h
        rw [if_pos rfl, dictLookup, dictLookup, if_neg hk, if_neg hk]
      · rw [if_neg h, dictLookup, dictLookup, ih]
  induction pubs generalizing fs with
  | nil =>
    simp only [writeFiles, Except.ok.injEq] at hw
    rw [hw]
  | cons p pubs ih =>
    have hj : joinPath dir p.name = p.name := by
      have h := habs p (by simp)
      unfold joinPath
      have : p.name ≠ "" := by
        intro h'
        rw [h'] at h
        simp at h
      rw [if_neg this, if_pos h]
    rw [writeFiles, hj] at hw
    cases h1 : fs.writeFile p.name (p.write T) with
    | error e => rw [h1] at hw; simp [bind, Except.bind] at hw
    | ok fs1 =>
      rw [h1] at hw
      simp only [bind, Except.bind] at hw
      rw [ih fs1 (fun q hq => habs q (List.mem_cons_of_mem _ hq)) hw
        (fun q hq => hpath q (List.mem_cons_of_mem _ hq))]
      unfold Fs.writeFile at h1
      split at h1
      · simp at h1
      split at h1
      · simp at h1
      simp only [Except.ok.injEq] at h1
      rw [← h1]
      unfold Fs.contentOf
      simp only
      rw [hupd _ _ _ (hpath p (by simp))]

/-- C67 as worded is false: the copy stays empty. -/
theorem C67_full_is_false : ¬ C67_full := by
  intro h
  obtain ⟨ds', h1, h2⟩ := h exText ⟨["/w/d"], [("/w/d/2", "1,1\n".toList)]⟩
    ⟨["/x/e", "/w/d"], [("/w/d/2", "1,1\n".toList)]⟩
    ⟨[⟨[(1, 1)], [1], 1, 1, "/w/d/2"⟩], 1, "d", 2⟩ "/w/d" "/x" "e"
    (by decide +kernel) (by unfold FreshDir; decide +kernel) (by decide +kernel)
  have : readDataSet exText ⟨["/x/e", "/w/d"], [("/w/d/2", "1,1\n".toList)]⟩ (joinPath "/x" "e")
      = .ok ⟨[], 0, "e", 0⟩ := by decide +kernel
  rw [this] at h1
  simp only [Except.ok.injEq] at h1
  subst h1
  simp at h2

example : (exStorePubs.map (fun p => ({ p with name := "/w/d/" ++ p.name } : PublisherData))).all
    (fun p => p.name.toList.head? = some '/') = true := by decide +kernel

/-! ## C57 -/

/-- What can happen in a process: the files change in some way, or a data set is read. -/
inductive StorageEvent where
  | change (f : Fs → Fs)
  | read (dir : String)

/-- The process after one event. -/
def Process.step (T : FloatText) (pr : Process) : StorageEvent → Process
  | .change f => { pr with fs := f pr.fs }
  | .read dir => (pr.read T dir).2

/-- The process after a sequence of events. -/
def Process.run (T : FloatText) (pr : Process) (evs : List StorageEvent) : Process :=
  evs.foldl (Process.step T) pr

/-- C57 as worded: after any history a read returns what is on disk. -/
def C57_full : Prop :=
  ∀ (T : FloatText) (fs : Fs) (evs : List StorageEvent) (dir : String),
    (((⟨fs, []⟩ : Process).run T evs).read T dir).1
      = readDataSet T (((⟨fs, []⟩ : Process).run T evs).fs) dir

theorem find?_key {ν : Type} (l : List (String × ν)) (dir : String) (e : String × ν)
    (h : l.find? (fun e => e.1 = dir) = some e) : e.1 = dir ∧ e ∈ l := by
  refine ⟨?_, List.mem_of_find?_eq_some h⟩
  simpa using List.find?_some h

/-- Entries of the cache after a read: old ones, or the result of reading the disk. -/
theorem read_cache_entries (T : FloatText) (pr : Process) (dir : String) (e : String × DataSet)
    (h : e ∈ (pr.read T dir).2.cache) :
    e ∈ pr.cache ∨ (e.1 = dir ∧ readDataSet T pr.fs dir = .ok e.2) := by
  unfold Process.read at h
  split at h
  · rename_i e' he'
    simp only [List.mem_cons, List.mem_filter] at h
    rcases h with rfl | h
    · exact Or.inl (find?_key _ _ _ he').2
    · exact Or.inl h.1
  · split at h
    · exact Or.inl h
    · rename_i ds hds
      have := List.mem_of_mem_take h
      rcases List.mem_cons.1 this with rfl | h
      · exact Or.inr ⟨rfl, hds⟩
      · exact Or.inl h

theorem read_fs (T : FloatText) (pr : Process) (dir : String) : (pr.read T dir).2.fs = pr.fs := by
  unfold Process.read
  split
  · rfl
  · split <;> rfl

/-- Everything in the cache was on disk at some point of the history. -/
theorem cache_was_on_disk (T : FloatText) (fs : Fs) (evs : List StorageEvent)
    (e : String × DataSet) (he : e ∈ ((⟨fs, []⟩ : Process).run T evs).cache) :
    ∃ pre post, evs = pre ++ post ∧
      readDataSet T ((⟨fs, []⟩ : Process).run T pre).fs e.1 = .ok e.2 := by
  induction evs using List.reverseRecOn with
  | nil => simp [Process.run] at he
  | append_singleton evs ev ih =>
    have hrun : (⟨fs, []⟩ : Process).run T (evs ++ [ev])
        = ((⟨fs, []⟩ : Process).run T evs).step T ev := by
      unfold Process.run; rw [List.foldl_append]; rfl
    rw [hrun] at he
    cases ev with
    | change f =>
      obtain ⟨pre, post, h1, h2⟩ := ih he
      exact ⟨pre, post ++ [.change f], by rw [h1, List.append_assoc], h2⟩
    | read dir =>
      rcases read_cache_entries T _ dir e he with h | ⟨h1, h2⟩
      · obtain ⟨pre, post, h1, h2⟩ := ih h
        exact ⟨pre, post ++ [.read dir], by rw [h1, List.append_assoc], h2⟩
      · exact ⟨evs, [.read dir], rfl, by rw [h1]; exact h2⟩

/-- C57 (a): a successful read returns what was on disk at some moment of the history.  Missing for
the full statement: that this moment is now. -/
theorem C57_some_moment_partial (T : FloatText) (fs : Fs) (evs : List StorageEvent) (dir : String)
    (ds : DataSet) (h : (((⟨fs, []⟩ : Process).run T evs).read T dir).1 = .ok ds) :
    ∃ pre post, evs = pre ++ post ∧
      readDataSet T ((⟨fs, []⟩ : Process).run T pre).fs dir = .ok ds := by
  unfold Process.read at h
  split at h
  · rename_i e he
    obtain ⟨hk, hm⟩ := find?_key _ _ _ he
    simp only [Except.ok.injEq] at h
    subst h
    rw [← hk]
    exact cache_was_on_disk T fs evs e hm
  · split at h
    · simp at h
    · rename_i ds' hds
      simp only [Except.ok.injEq] at h
      subst h
      exact ⟨evs, [], by simp, hds⟩

/-- C57 (b): the first read of a directory, and every read that follows only failed reads of it,
returns what is on disk. -/
theorem C57_uncached (T : FloatText) (pr : Process) (dir : String)
    (h : ∀ e ∈ pr.cache, e.1 ≠ dir) : (pr.read T dir).1 = readDataSet T pr.fs dir := by
  unfold Process.read
  have : pr.cache.find? (fun e => e.1 = dir) = none := by
    rw [List.find?_eq_none]
    intro e he
    simpa using h e he
  rw [this]
  simp only
  cases readDataSet T pr.fs dir <;> rfl

/-- C57 (c): if the file system does not change then every read returns what is on disk. -/
theorem C57_no_changes (T : FloatText) (fs : Fs) (evs : List StorageEvent) (dir : String)
    (h : ∀ ev ∈ evs, ∃ d, ev = .read d) :
    (((⟨fs, []⟩ : Process).run T evs).read T dir).1 = readDataSet T fs dir := by
  have hfs : ∀ evs : List StorageEvent, (∀ ev ∈ evs, ∃ d, ev = .read d) →
      ((⟨fs, []⟩ : Process).run T evs).fs = fs := by
    intro evs
    induction evs using List.reverseRecOn with
    | nil => intro _; rfl
    | append_singleton evs ev ih =>
      intro h
      have hrun : (⟨fs, []⟩ : Process).run T (evs ++ [ev])
          = ((⟨fs, []⟩ : Process).run T evs).step T ev := by
        unfold Process.run; rw [List.foldl_append]; rfl
      obtain ⟨d, rfl⟩ := h ev (by simp)
      rw [hrun]
      show (((⟨fs, []⟩ : Process).run T evs).read T d).2.fs = fs
      rw [read_fs]
      exact ih (fun x hx => h x (List.mem_append_left _ hx))
  cases hr : (((⟨fs, []⟩ : Process).run T evs).read T dir).1 with
  | ok ds =>
    obtain ⟨pre, post, h1, h2⟩ := C57_some_moment_partial T fs evs dir ds hr
    rw [hfs pre (fun ev hev => h ev (by rw [h1]; exact List.mem_append_left _ hev))] at h2
    exact h2.symm
  | error err =>
    have hf := hfs evs h
    unfold Process.read at hr
    split at hr
    · simp at hr
    · rw [hf] at hr
      split at hr
      · rename_i e' he'
        simp only [Except.error.injEq] at hr
        rw [he', hr]
      · simp at hr

theorem read_keys (T : FloatText) (pr : Process) (dir : String) (ds : DataSet)
    (h : readDataSet T pr.fs dir = .ok ds) (hno : ∀ e ∈ pr.cache, e.1 ≠ dir) :
    (pr.read T dir).2.cache.map (·.1) = (dir :: pr.cache.map (·.1)).take 128 := by
  unfold Process.read
  have : pr.cache.find? (fun e => e.1 = dir) = none := by
    rw [List.find?_eq_none]
    intro e he
    simpa using hno e he
  rw [this]
  simp only [h, List.map_take, List.map_cons]

/-- C57 (d): the cache never holds more than 128 data sets, and one per directory. -/
theorem C57_cache_bounded (T : FloatText) (fs : Fs) (evs : List StorageEvent) :
    ((⟨fs, []⟩ : Process).run T evs).cache.length ≤ 128 ∧
      (((⟨fs, []⟩ : Process).run T evs).cache.map (·.1)).Nodup := by
  induction evs using List.reverseRecOn with
  | nil => simp [Process.run]
  | append_singleton evs ev ih =>
    have hrun : (⟨fs, []⟩ : Process).run T (evs ++ [ev])
        = ((⟨fs, []⟩ : Process).run T evs).step T ev := by
      unfold Process.run; rw [List.foldl_append]; rfl
    rw [hrun]
    cases ev with
    | change f => exact ih
    | read dir =>
      generalize (⟨fs, []⟩ : Process).run T evs = pr at ih
      obtain ⟨h1, h2⟩ := ih
      show (pr.read T dir).2.cache.length ≤ 128 ∧ ((pr.read T dir).2.cache.map (·.1)).Nodup
      unfold Process.read
      split
      · rename_i e he
        obtain ⟨hk, hm⟩ := find?_key _ _ _ he
        constructor
        · have : (pr.cache.filter (fun x => decide (x.1 ≠ dir))).length < pr.cache.length :=
            List.length_filter_lt_length_iff_exists.2 ⟨e, hm, by simp [hk]⟩
          simp only [List.length_cons]
          omega
        · simp only [List.map_cons, List.nodup_cons]
          refine ⟨?_, (h2.sublist (List.Sublist.map _ List.filter_sublist))⟩
          intro h
          obtain ⟨x, hx, hxe⟩ := List.mem_map.1 h
          simp only [List.mem_filter, decide_eq_true_eq] at hx
          exact hx.2 (by rw [hxe, hk])
      · rename_i hnone
        split
        · exact ⟨h1, h2⟩
        · refine ⟨by simp only [List.length_take]; omega, ?_⟩
          rw [List.map_take]
          refine List.Nodup.sublist (List.take_sublist _ _) ?_
          simp only [List.map_cons, List.nodup_cons]
          refine ⟨?_, h2⟩
          intro h
          obtain ⟨x, hx, hxe⟩ := List.mem_map.1 h
          have := List.find?_eq_none.1 hnone x hx
          simp [hxe] at this

/-- C57 as worded is false: data written after the first read is not seen. -/
theorem C57_full_is_false : ¬ C57_full := by
  intro h
  let fs1 : Fs := ⟨["/w/d"], [("/w/d/a", "1,1\n".toList)]⟩
  let fs2 : Fs := ⟨["/w/d"], [("/w/d/a", "1,1\n2,2\n".toList)]⟩
  have h1 := h exText fs1 [.read "/w/d", .change (fun _ => fs2)] "/w/d"
  have r1 : readDataSet exText fs1 "/w/d"
      = .ok ⟨[⟨[(1, 1)], [1], 1, 1, "/w/d/a"⟩], 1, "d", 2⟩ := by decide +kernel
  have r2 : readDataSet exText fs2 "/w/d"
      = .ok ⟨[⟨[(1, 1), (2, 2)], [1, 2], 2, 2, "/w/d/a"⟩], 2, "d", 4⟩ := by decide +kernel
  simp only [Process.run, List.foldl_cons, List.foldl_nil, Process.step] at h1
  have e1 : ((⟨fs1, []⟩ : Process).read exText "/w/d").2
      = ⟨fs1, [("/w/d", ⟨[⟨[(1, 1)], [1], 1, 1, "/w/d/a"⟩], 1, "d", 2⟩)]⟩ := by
    simp only [Process.read, List.find?_nil, r1]
    rfl
  rw [e1, r2] at h1
  simp [Process.read] at h1

example : ((⟨⟨["/w/d"], [("/w/d/a", "1,1\n".toList)]⟩, []⟩ : Process).read exText "/w/d").1
    = .ok ⟨[⟨[(1, 1)], [1], 1, 1, "/w/d/a"⟩], 1, "d", 2⟩ := by decide +kernel

example : ∀ e ∈ (⟨exFs, []⟩ : Process).cache, e.1 ≠ "/w/d" := by simp

example : ∀ ev ∈ [StorageEvent.read "/a", .read "/b"], ∃ d, ev = .read d := by
  intro ev h
  simp only [List.mem_cons, List.not_mem_nil, or_false] at h
  rcases h with rfl | rfl <;> exact ⟨_, rfl⟩

end Verif
