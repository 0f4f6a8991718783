import Verif.Spec.Storage
import Mathlib.Tactic.Linarith
import Mathlib.Tactic.NormNum
import Mathlib.Tactic.IntervalCases

/-! # Lemmas about the text format -/

namespace Verif

open Verif.Spec

/-! ## Integers -/

theorem digitChar_toNat (d : Nat) (h : d < 10) : (digitChar d).toNat = 48 + d := by
  interval_cases d <;> rfl

/-- All characters are digits. -/
def AllDigits (s : Text) : Prop := ∀ c ∈ s, 48 ≤ c.toNat ∧ c.toNat ≤ 57

theorem showNat_digits (n : Nat) : AllDigits (showNat n) := by
  induction n using Nat.strong_induction_on with
  | _ n ih =>
    rw [showNat]
    split
    · intro c hc
      simp only [List.mem_singleton] at hc
      subst hc
      rw [digitChar_toNat _ (by omega)]
      omega
    · intro c hc
      rcases List.mem_append.1 hc with h | h
      · exact ih (n / 10) (by omega) c h
      · simp only [List.mem_singleton] at h
        subst h
        rw [digitChar_toNat _ (by omega)]
        omega

theorem showNat_ne_nil (n : Nat) : showNat n ≠ [] := by
  rw [showNat]; split <;> simp

theorem parseDigits_digit (prev : Bool) (acc : Nat) (c : Char) (rest : Text)
    (h : 48 ≤ c.toNat ∧ c.toNat ≤ 57) :
    parseDigits prev acc (c :: rest) = parseDigits true (10 * acc + (c.toNat - 48)) rest := by
  rw [parseDigits]
  have : c ≠ '_' := by
    rintro rfl
    exact absurd h.2 (by decide)
  rw [if_neg this, if_pos h]

theorem parseDigits_append (s t : Text) (hs : AllDigits s) (hne : s ≠ []) (prev : Bool) (acc : Nat) :
    parseDigits prev acc (s ++ t)
      = parseDigits true (s.foldl (fun a c => 10 * a + (c.toNat - 48)) acc) t := by
  induction s generalizing prev acc with
  | nil => exact absurd rfl hne
  | cons c s ih =>
    rw [List.cons_append, parseDigits_digit _ _ _ _ (hs c (by simp))]
    cases s with
    | nil => rfl
    | cons c' s' =>
      rw [ih (fun x hx => hs x (List.mem_cons_of_mem _ hx)) (by simp)]
      rfl

theorem showNat_value (n : Nat) :
    (showNat n).foldl (fun a c => 10 * a + (c.toNat - 48)) 0 = n := by
  induction n using Nat.strong_induction_on with
  | _ n ih =>
    rw [showNat]
    split
    · simp only [List.foldl_cons, List.foldl_nil]
      rw [digitChar_toNat _ (by omega)]; omega
    · rw [List.foldl_append, ih (n / 10) (by omega)]
      simp only [List.foldl_cons, List.foldl_nil]
      rw [digitChar_toNat _ (by omega)]; omega

theorem parseDigits_showNat (n : Nat) : parseDigits false 0 (showNat n) = some n := by
  have := parseDigits_append (showNat n) [] (showNat_digits n) (showNat_ne_nil n) false 0
  rw [List.append_nil] at this
  rw [this, showNat_value]
  rfl

theorem pySpace_digit (c : Char) (h : 48 ≤ c.toNat ∧ c.toNat ≤ 57) : pySpace c = false := by
  unfold pySpace
  simp only [Bool.or_eq_false_iff, Bool.and_eq_false_iff, beq_eq_false_iff_ne, decide_eq_false_iff_not]
  omega

theorem dropWhile_of_all {α : Type} (p : α → Bool) (l : List α) (h : ∀ c ∈ l, p c = false) :
    l.dropWhile p = l := by
  cases l with
  | nil => rfl
  | cons a l => simp [h a (by simp)]

theorem pyStrip_of_nospace (s : Text) (h : ∀ c ∈ s, pySpace c = false) : pyStrip s = s := by
  unfold pyStrip
  rw [dropWhile_of_all _ _ h, dropWhile_of_all _ _ (by simpa using h), List.reverse_reverse]

/-- Decimal printing of an integer parses back to it. -/
theorem parseInt_showInt (n : Int) : parseInt (showInt n) = some n := by
  unfold showInt
  have hd := showNat_digits n.natAbs
  split
  · rename_i hn
    have : pyStrip ('-' :: showNat n.natAbs) = '-' :: showNat n.natAbs := by
      apply pyStrip_of_nospace
      intro c hc
      rcases List.mem_cons.1 hc with rfl | hc
      · decide
      · exact pySpace_digit c (hd c hc)
    unfold parseInt
    rw [this]
    simp only [parseDigits_showNat, Option.map_some, Option.some.injEq]
    omega
  · rename_i hn
    have hs : pyStrip (showNat n.natAbs) = showNat n.natAbs :=
      pyStrip_of_nospace _ (fun c hc => pySpace_digit c (hd c hc))
    unfold parseInt
    rw [hs]
    have hp := parseDigits_showNat n.natAbs
    generalize showNat n.natAbs = s at hd hp ⊢
    split
    · rename_i rest
      exact absurd (hd '-' (by simp)).1 (by decide)
    · rename_i rest
      exact absurd (hd '+' (by simp)).1 (by decide)
    · rw [hp]
      simp only [Option.map_some, Option.some.injEq]
      omega

theorem showInt_chars (n : Int) (c : Char) (hc : c ∈ showInt n) :
    c = '-' ∨ (48 ≤ c.toNat ∧ c.toNat ≤ 57) := by
  unfold showInt at hc
  split at hc
  · rcases List.mem_cons.1 hc with h | h
    · exact Or.inl h
    · exact Or.inr (showNat_digits _ c h)
  · exact Or.inr (showNat_digits _ c hc)

theorem showInt_clean (n : Int) :
    ',' ∉ showInt n ∧ '\n' ∉ showInt n ∧ '\r' ∉ showInt n := by
  refine ⟨?_, ?_, ?_⟩ <;> intro h <;> rcases showInt_chars n _ h with h | h <;> revert h <;> decide

/-! ## Fields and lines -/

theorem splitComma_ne_nil (s : Text) : splitComma s ≠ [] := by
  cases s with
  | nil => simp [splitComma]
  | cons c s =>
    rw [splitComma]
    split
    · simp
    · split <;> simp

theorem splitComma_of_nocomma (s : Text) (h : ',' ∉ s) : splitComma s = [s] := by
  induction s with
  | nil => rfl
  | cons c s ih =>
    have hc : c ≠ ',' := by rintro rfl; simp at h
    rw [splitComma, if_neg hc, ih (fun h' => h (by simp [h']))]

theorem splitComma_append (a b : Text) (h : ',' ∉ a) :
    splitComma (a ++ ',' :: b) = a :: splitComma b := by
  induction a with
  | nil => simp [splitComma]
  | cons c s ih =>
    have hc : c ≠ ',' := by rintro rfl; simp at h
    rw [List.cons_append, splitComma, if_neg hc, ih (fun h' => h (by simp [h']))]

theorem first_comma (s : Text) (h : ',' ∈ s) : ∃ a b, s = a ++ ',' :: b ∧ ',' ∉ a := by
  induction s with
  | nil => simp at h
  | cons c s ih =>
    by_cases hc : c = ','
    · exact ⟨[], s, by simp [hc], by simp⟩
    · rcases List.mem_cons.1 h with h | h
      · exact absurd h.symm hc
      · obtain ⟨x, y, hxy, hx⟩ := ih h
        exact ⟨c :: x, y, by simp [hxy], by simp [hx, Ne.symm hc]⟩

theorem splitComma_cases (s : Text) :
    (',' ∉ s ∧ splitComma s = [s]) ∨
      ∃ a b, s = a ++ ',' :: b ∧ ',' ∉ a ∧ splitComma s = a :: splitComma b := by
  by_cases h : ',' ∈ s
  · right
    obtain ⟨a, b, hs, ha⟩ := first_comma s h
    exact ⟨a, b, hs, ha, by rw [hs]; exact splitComma_append a b ha⟩
  · exact Or.inl ⟨h, splitComma_of_nocomma s h⟩

theorem splitComma_two (s a b : Text) :
    splitComma s = [a, b] ↔ s = a ++ ',' :: b ∧ ',' ∉ a ∧ ',' ∉ b := by
  constructor
  · intro h
    rcases splitComma_cases s with ⟨_, h'⟩ | ⟨a', b', hs, ha', h'⟩
    · rw [h'] at h; simp at h
    · rw [h'] at h
      simp only [List.cons.injEq] at h
      obtain ⟨rfl, hb⟩ := h
      rcases splitComma_cases b' with ⟨hc, h''⟩ | ⟨a'', b'', _, _, h''⟩
      · rw [h''] at hb
        simp only [List.cons.injEq, and_true] at hb
        subst hb
        exact ⟨hs, ha', hc⟩
      · rw [h''] at hb
        simp only [List.cons.injEq] at hb
        exact absurd hb.2 (splitComma_ne_nil _)
  · rintro ⟨rfl, ha, hb⟩
    rw [splitComma_append a b ha, splitComma_of_nocomma b hb]

theorem parseLine_iff (T : FloatText) (line : Text) (e : Int × ℚ) :
    parseLine T line = some e ↔ LineIs T line e := by
  unfold parseLine LineIs
  constructor
  · intro h
    split at h
    · rename_i a b hs
      split at h
      · rename_i i x hi hx
        simp only [Option.some.injEq] at h
        subst h
        obtain ⟨h1, h2, h3⟩ := (splitComma_two line a b).1 hs
        exact ⟨a, b, h1, h2, h3, hi, hx⟩
      · simp at h
    · simp at h
  · rintro ⟨a, b, h1, h2, h3, h4, h5⟩
    rw [(splitComma_two line a b).2 ⟨h1, h2, h3⟩]
    simp only [h4, h5]

theorem pyLines_line (m t : Text) (h : '\n' ∉ m) :
    pyLines (m ++ '\n' :: t) = (m ++ ['\n']) :: pyLines t := by
  induction m with
  | nil => simp [pyLines]
  | cons c m ih =>
    have hc : c ≠ '\n' := by rintro rfl; simp at h
    rw [List.cons_append, pyLines, if_neg hc, ih (fun h' => h (by simp [h']))]
    rfl

theorem pyLines_last (m : Text) (hne : m ≠ []) (h : '\n' ∉ m) : pyLines m = [m] := by
  induction m with
  | nil => exact absurd rfl hne
  | cons c m ih =>
    have hc : c ≠ '\n' := by rintro rfl; simp at h
    rw [pyLines, if_neg hc]
    by_cases hm : m = []
    · subst hm; rfl
    · rw [ih hm (fun h' => h (by simp [h']))]

theorem Spec.IsLines.eq {ls : List Text} {t : Text} (h : IsLines ls t) : pyLines t = ls := by
  induction h with
  | nil => rfl
  | last m h1 h2 => exact pyLines_last m h1 h2
  | cons m ls t h1 _ ih => rw [pyLines_line m t h1, ih]

/-- Every text has lines. -/
theorem isLines_pyLines (t : Text) : IsLines (pyLines t) t := by
  induction t with
  | nil => exact .nil
  | cons c t ih =>
    rw [pyLines]
    split
    · rename_i hc
      subst hc
      exact IsLines.cons [] _ t (by simp) ih
    · rename_i hc
      revert ih
      generalize pyLines t = ls
      intro ih
      cases ih with
      | nil => exact .last [c] (by simp) (by simpa using Ne.symm hc)
      | last m h1 h2 => exact .last _ (by simp) (by simp [h2, Ne.symm hc])
      | cons m ls t h1 h2 =>
        exact IsLines.cons (c :: m) ls t (by simp [h1, Ne.symm hc]) h2

theorem universalNewlines_id (t : Text) (h : '\r' ∉ t) : universalNewlines t = t := by
  induction t with
  | nil => rfl
  | cons c t ih =>
    have hc : c ≠ '\r' := by rintro rfl; simp at h
    have ih := ih (fun h' => h (by simp [h']))
    unfold universalNewlines
    split
    · rename_i heq; simp at heq
    · rename_i heq; simp only [List.cons.injEq] at heq; exact absurd heq.1 hc
    · rename_i heq; simp only [List.cons.injEq] at heq; exact absurd heq.1 hc
    · rename_i heq; simp only [List.cons.injEq] at heq
      obtain ⟨rfl, rfl⟩ := heq
      rw [ih]

/-! ## Reading -/

theorem readLines_ok (T : FloatText) (ls : List Text) (es : Log)
    (h : List.Forall₂ (LineIs T) ls es) (n : Nat) (acc : Log) :
    readLines T ls n acc = .ok (acc ++ es) := by
  induction h generalizing n acc with
  | nil => simp [readLines]
  | cons h _ ih =>
    rw [readLines, (parseLine_iff T _ _).2 h]
    simp only [ih, List.append_assoc, List.singleton_append]

theorem readLines_append (T : FloatText) (ls : List Text) (es : Log)
    (h : List.Forall₂ (LineIs T) ls es) (rest : List Text) (n : Nat) (acc : Log) :
    readLines T (ls ++ rest) n acc = readLines T rest (n + ls.length) (acc ++ es) := by
  induction h generalizing n acc with
  | nil => simp
  | cons h _ ih =>
    rw [List.cons_append, readLines, (parseLine_iff T _ _).2 h]
    simp only [ih, List.append_assoc, List.singleton_append, List.length_cons]
    congr 1; omega

theorem split_good (T : FloatText) (ls : List Text) :
    (∃ es, List.Forall₂ (LineIs T) ls es) ∨
      ∃ pre bad post es, ls = pre ++ bad :: post ∧ List.Forall₂ (LineIs T) pre es ∧
        ¬ ∃ e, LineIs T bad e := by
  induction ls with
  | nil => exact Or.inl ⟨[], .nil⟩
  | cons l ls ih =>
    by_cases hl : ∃ e, LineIs T l e
    · obtain ⟨e, he⟩ := hl
      rcases ih with ⟨es, h⟩ | ⟨pre, bad, post, es, h1, h2, h3⟩
      · exact Or.inl ⟨e :: es, .cons he h⟩
      · exact Or.inr ⟨l :: pre, bad, post, e :: es, by simp [h1], .cons he h2, h3⟩
    · exact Or.inr ⟨[], l, ls, [], rfl, .nil, hl⟩

theorem readLines_bad (T : FloatText) (pre post : List Text) (bad : Text) (es : Log)
    (h : List.Forall₂ (LineIs T) pre es) (hbad : ¬ ∃ e, LineIs T bad e) (acc : Log) :
    readLines T (pre ++ bad :: post) 0 acc = .error (.atLine (pre.length + 1)) := by
  rw [readLines_append T pre es h, readLines]
  have : parseLine T bad = none := by
    rw [← Option.not_isSome_iff_eq_none]
    intro hs
    obtain ⟨e, he⟩ := Option.isSome_iff_exists.1 hs
    exact hbad ⟨e, (parseLine_iff T bad e).1 he⟩
  rw [this]
  simp

theorem write_lines (T : FloatText) (data : Log) (h : ∀ e ∈ data, Printable T e.2) :
    IsLines (data.map (fun e => showInt e.1 ++ ',' :: (T.fmt e.2 ++ ['\n'])))
      (data.flatMap (fun e => showInt e.1 ++ ',' :: (T.fmt e.2 ++ ['\n']))) ∧
    List.Forall₂ (LineIs T) (data.map (fun e => showInt e.1 ++ ',' :: (T.fmt e.2 ++ ['\n']))) data ∧
    '\r' ∉ data.flatMap (fun e => showInt e.1 ++ ',' :: (T.fmt e.2 ++ ['\n'])) := by
  induction data with
  | nil => exact ⟨.nil, .nil, by simp⟩
  | cons e data ih =>
    obtain ⟨h1, h2, h3⟩ := ih (fun x hx => h x (List.mem_cons_of_mem _ hx))
    obtain ⟨p1, p2, p3, p4⟩ := h e (by simp)
    obtain ⟨c1, c2, c3⟩ := showInt_clean e.1
    refine ⟨?_, ?_, ?_⟩
    · have := IsLines.cons (showInt e.1 ++ ',' :: T.fmt e.2) _ _ (by
        simp only [List.mem_append, List.mem_cons, not_or]
        exact ⟨c2, by decide, p3⟩) h1
      simp only [List.map_cons, List.flatMap_cons]
      simpa using this
    · refine .cons ?_ h2
      refine ⟨showInt e.1, T.fmt e.2 ++ ['\n'], rfl, c1, ?_, parseInt_showInt _, p1⟩
      simp only [List.mem_append, List.mem_singleton, not_or]
      exact ⟨p2, by decide⟩
    · simp only [List.flatMap_cons, List.mem_append, List.mem_cons, List.not_mem_nil, not_or, or_false]
      exact ⟨⟨c3, by decide, p4, by decide⟩, h3⟩

theorem append_sep_inj {α : Type} {s : α} : ∀ {a b c d : List α}, s ∉ a → s ∉ c →
    a ++ s :: b = c ++ s :: d → a = c ∧ b = d := by
  intro a
  induction a with
  | nil =>
    intro b c d _ hc h
    cases c with
    | nil => simpa using h
    | cons x c =>
      simp only [List.nil_append, List.cons_append, List.cons.injEq] at h
      exact absurd (by simp [h.1]) hc
  | cons y a ih =>
    intro b c d ha hc h
    cases c with
    | nil =>
      simp only [List.nil_append, List.cons_append, List.cons.injEq] at h
      exact absurd (by simp [h.1]) ha
    | cons x c =>
      simp only [List.cons_append, List.cons.injEq] at h
      obtain ⟨h1, h2⟩ := ih (fun e => ha (by simp [e])) (fun e => hc (by simp [e])) h.2
      exact ⟨by rw [h.1, h1], h2⟩

end Verif
