import Verif.Props.PublisherFile
import Mathlib.Data.String.Basic

/-! # Lemmas about the data set directory -/

namespace Verif

open Verif.Spec

/-- A name that denotes a file inside the directory: not empty and without slash. -/
def PlainName (n : String) : Prop := n ≠ "" ∧ '/' ∉ n.toList

theorem PlainName.head {n : String} (h : PlainName n) : n.toList.head? ≠ some '/' := by
  intro h'
  exact h.2 (List.mem_of_mem_head? h')

theorem joinPath_plain (d n : String) (h : PlainName n) : joinPath d n = d ++ "/" ++ n := by
  unfold joinPath
  rw [if_neg h.1, if_neg h.head]

theorem joinPath_toList (d n : String) (h : PlainName n) :
    (joinPath d n).toList = d.toList ++ '/' :: n.toList := by
  rw [joinPath_plain d n h]
  simp [String.toList_append]

theorem parentPath_join (d n : String) (hd : d ≠ "") (h : PlainName n) :
    parentPath (joinPath d n) = d := by
  unfold parentPath
  rw [joinPath_toList d n h]
  have hpc : parentChars (d.toList ++ '/' :: n.toList) = some d.toList := by
    unfold parentChars
    rw [if_pos (by simp)]
    simp only [List.reverse_append, List.reverse_cons, List.append_assoc]
    rw [List.dropWhile_append_of_pos]
    · simp
    · intro c hc
      simp only [List.mem_reverse] at hc
      simp only [ne_eq, decide_not, Bool.not_eq_eq_eq_not, Bool.not_true, decide_eq_false_iff_not]
      rintro rfl
      exact h.2 hc
  rw [hpc]
  cases hl : d.toList with
  | nil => exact absurd (String.toList_eq_nil_iff.1 hl) hd
  | cons c l =>
    simp only
    rw [← hl, String.ofList_toList]

theorem joinPath_inj (d a b : String) (ha : PlainName a) (hb : PlainName b)
    (h : joinPath d a = joinPath d b) : a = b := by
  have h' := congrArg String.toList h
  rw [joinPath_toList d a ha, joinPath_toList d b hb] at h'
  simp only [List.append_cancel_left_eq, List.cons.injEq, true_and] at h'
  exact String.toList_injective h'

theorem list_append_lt_iff (p a b : List Char) : p ++ a < p ++ b ↔ a < b := by
  induction p with
  | nil => rfl
  | cons c p ih => simp [ih]

theorem joinPath_le_iff (d a b : String) (ha : PlainName a) (hb : PlainName b) :
    joinPath d a ≤ joinPath d b ↔ a ≤ b := by
  rw [← not_lt, ← not_lt, String.lt_iff_toList_lt, String.lt_iff_toList_lt, joinPath_toList d a ha,
    joinPath_toList d b hb, list_append_lt_iff]
  exact not_congr (list_append_lt_iff ['/'] _ _)

theorem joinPath_ne_self (d n : String) (h : PlainName n) : joinPath d n ≠ d := by
  intro h'
  have := congrArg (fun s : String => s.toList.length) h'
  rw [joinPath_toList d n h] at this
  simp at this

theorem dictUpd_absent {κ ν : Type} [DecidableEq κ] (d : Dict κ ν) (k : κ) (f : Option ν → ν)
    (h : k ∉ d.map (·.1)) : dictUpd d k f = d ++ [(k, f none)] := by
  induction d with
  | nil => rfl
  | cons e d ih =>
    obtain ⟨k', v⟩ := e
    simp only [List.map_cons, List.mem_cons, not_or] at h
    rw [dictUpd, if_neg (Ne.symm h.1), ih h.2]
    rfl

theorem dictLookup_mem {κ ν : Type} [DecidableEq κ] (d : Dict κ ν) (hn : (d.map (·.1)).Nodup)
    (k : κ) (v : ν) (h : (k, v) ∈ d) : dictLookup d k = .ok v := by
  induction d with
  | nil => simp at h
  | cons e d ih =>
    obtain ⟨k', v'⟩ := e
    simp only [List.map_cons, List.nodup_cons] at hn
    rw [dictLookup]
    rcases List.mem_cons.1 h with h | h
    · simp only [Prod.mk.injEq] at h
      rw [if_pos h.1.symm, h.2]
    · have : k' ≠ k := by
        rintro rfl
        exact hn.1 (List.mem_map.2 ⟨_, h, rfl⟩)
      rw [if_neg this, ih hn.2 h]

theorem dictLookup_append_right {κ ν : Type} [DecidableEq κ] (d e : Dict κ ν) (k : κ)
    (h : k ∉ d.map (·.1)) : dictLookup (d ++ e) k = dictLookup e k := by
  induction d with
  | nil => rfl
  | cons x d ih =>
    obtain ⟨k', v'⟩ := x
    simp only [List.map_cons, List.mem_cons, not_or] at h
    rw [List.cons_append, dictLookup, if_neg (Ne.symm h.1), ih h.2]

theorem dictLookup_absent {κ ν : Type} [DecidableEq κ] (d : Dict κ ν) (k : κ)
    (h : k ∉ d.map (·.1)) : dictLookup d k = .error .keyError := by
  have := dictLookup_append_right d [] k h
  rw [List.append_nil] at this
  rw [this]; rfl

/-- The file written for a publisher. -/
def fileOf (T : FloatText) (dir : String) (p : PublisherData) : String × Text :=
  (joinPath dir p.name, p.write T)

theorem writeFiles_ok (T : FloatText) (dir : String) (hd : dir ≠ "") (pubs : List PublisherData)
    (fs : Fs) (hdir : dir ∈ fs.dirs) (hplain : ∀ p ∈ pubs, PlainName p.name)
    (hnodup : (pubs.map (·.name)).Nodup)
    (hfresh : ∀ p ∈ pubs, joinPath dir p.name ∉ fs.dirs ∧
      joinPath dir p.name ∉ fs.files.map (·.1)) :
    writeFiles T dir pubs fs
      = .ok { fs with files := fs.files ++ pubs.map (fileOf T dir) } := by
  induction pubs generalizing fs with
  | nil => simp [writeFiles]
  | cons p pubs ih =>
    have hp := hplain p (by simp)
    obtain ⟨h1, h2⟩ := hfresh p (by simp)
    simp only [List.map_cons, List.nodup_cons] at hnodup
    have hw : fs.writeFile (joinPath dir p.name) (p.write T)
        = .ok { fs with files := fs.files ++ [fileOf T dir p] } := by
      unfold Fs.writeFile
      rw [if_neg h1, parentPath_join dir p.name hd hp, if_neg (by simpa using hdir),
        dictUpd_absent _ _ _ h2]
      rfl
    rw [writeFiles, hw]
    simp only [bind, Except.bind]
    rw [ih]
    · simp
    · exact hdir
    · exact fun q hq => hplain q (List.mem_cons_of_mem _ hq)
    · exact hnodup.2
    · intro q hq
      obtain ⟨g1, g2⟩ := hfresh q (List.mem_cons_of_mem _ hq)
      refine ⟨g1, ?_⟩
      simp only [List.map_append, List.map_cons, List.map_nil, List.mem_append,
        List.mem_singleton, not_or]
      refine ⟨g2, ?_⟩
      intro h'
      have := joinPath_inj dir _ _ (hplain q (List.mem_cons_of_mem _ hq)) hp h'
      exact hnodup.1 (List.mem_map.2 ⟨q, hq, this⟩)

theorem readFiles_ok (T : FloatText) (fs : Fs) (l : List String) (ps : List PublisherData)
    (h : List.Forall₂ (fun path p => ∃ content q, fs.contentOf path = some content ∧
      readPublisherData T content "" = .ok q ∧ p = { q with name := path })
      (l.filter (fun path => (fs.contentOf path).isSome)) ps) :
    readFiles T fs l = .ok ps := by
  induction l generalizing ps with
  | nil => cases h; rfl
  | cons path l ih =>
    rw [readFiles]
    cases hc : fs.contentOf path with
    | none =>
      rw [List.filter_cons_of_neg (by simp [hc])] at h
      exact ih ps h
    | some content =>
      rw [List.filter_cons_of_pos (by simp [hc])] at h
      cases h with
      | cons h1 h2 =>
        obtain ⟨c', q, g1, g2, g3⟩ := h1
        rw [hc] at g1
        simp only [Option.some.injEq] at g1
        subst g1
        simp only [g2, ih _ h2, bind, Except.bind, pure, Except.pure, g3]

theorem sortStrings_perm (l : List String) : (sortStrings l).Perm l :=
  List.perm_insertionSort (fun a b : String => a ≤ b) l

theorem sortStrings_pairwise (l : List String) : (sortStrings l).Pairwise (fun a b => a ≤ b) :=
  List.pairwise_insertionSort (fun a b : String => a ≤ b) l

/-- Publishers in the order of their names. -/
def byName (pubs : List PublisherData) : List PublisherData :=
  pubs.insertionSort (fun p q => p.name ≤ q.name)

theorem byName_perm (pubs : List PublisherData) : (byName pubs).Perm pubs :=
  List.perm_insertionSort (fun p q : PublisherData => p.name ≤ q.name) pubs

theorem byName_pairwise (pubs : List PublisherData) :
    (byName pubs).Pairwise (fun p q => p.name ≤ q.name) := by
  have : Std.Total (fun p q : PublisherData => p.name ≤ q.name) :=
    ⟨fun p q => le_total p.name q.name⟩
  have : IsTrans PublisherData (fun p q : PublisherData => p.name ≤ q.name) :=
    ⟨fun p q r h h' => le_trans h h'⟩
  exact List.pairwise_insertionSort (fun p q : PublisherData => p.name ≤ q.name) pubs

end Verif
