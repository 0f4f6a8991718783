import Verif.Lemmas.Text
import Verif.Lemmas.DataSet

/-!
# C05, C06: the publisher file
-/

namespace Verif

open Verif.Spec

/-- Floats for the examples: only whole numbers are printed faithfully. -/
def exText : FloatText where
  fmt x := showInt x.num
  parse s := (parseInt s).map (fun n : Int => (n : ℚ))

/-! ## C06 -/

/-- C06 (a): reading fails with line number `n` exactly when line `n` (counted from one) is
malformed and all lines before are well formed. -/
theorem C06_first_malformed_line (T : FloatText) (content : Text) (rnd : String) (lines : List Text)
    (hl : IsLines lines (universalNewlines content)) (n : Nat) :
    readPublisherData T content rnd = .error (.atLine n) ↔
      (∃ line, 1 ≤ n ∧ lines[n - 1]? = some line ∧ ¬ ∃ e, LineIs T line e) ∧
        ∀ i, i + 1 < n → ∃ line e, lines[i]? = some line ∧ LineIs T line e := by
  unfold readPublisherData
  rw [hl.eq]
  rcases split_good T lines with ⟨es, h⟩ | ⟨pre, bad, post, es, rfl, h2, h3⟩
  · rw [readLines_ok T lines es h]
    constructor
    · intro hn
      simp only [bind, Except.bind, List.nil_append] at hn
      unfold PublisherData.new pyMax at hn
      cases es <;> simp [bind, Except.bind, pure, Except.pure] at hn
    · rintro ⟨⟨line, h1, h2, h3⟩, _⟩
      exfalso
      apply h3
      obtain ⟨hlt, rfl⟩ := List.getElem?_eq_some_iff.1 h2
      have := h.length_eq
      exact ⟨es[n - 1], (List.forall₂_iff_get.1 h).2 (n - 1) hlt (by omega)⟩
  · rw [readLines_bad T pre post bad es h2 h3]
    simp only [bind, Except.bind, Except.error.injEq, PyErr.atLine.injEq]
    have hpre : ∀ i, i < pre.length → ∃ line e, (pre ++ bad :: post)[i]? = some line ∧
        LineIs T line e := by
      intro i hi
      have := h2.length_eq
      exact ⟨pre[i], es[i], by rw [List.getElem?_append_left hi]; simp,
        (List.forall₂_iff_get.1 h2).2 i hi (by omega)⟩
    constructor
    · rintro rfl
      refine ⟨⟨bad, by omega, ?_, h3⟩, fun i hi => hpre i (by omega)⟩
      simp
    · rintro ⟨⟨line, g1, g2, g3⟩, g4⟩
      by_contra hne
      rcases Nat.lt_or_ge (pre.length + 1) n with hlt | hge
      · obtain ⟨line', e, q1, q2⟩ := g4 pre.length (by omega)
        simp at q1
        subst q1
        exact h3 ⟨e, q2⟩
      · obtain ⟨line', e, q1, q2⟩ := hpre (n - 1) (by omega)
        rw [q1] at g2
        simp only [Option.some.injEq] at g2
        subst g2
        exact g3 ⟨e, q2⟩

/-- C06 (b): if every line is well formed then the log consists of the entries on the lines, all of
them, in their order; an empty file is a `ValueError`. -/
theorem C06_reads_every_line (T : FloatText) (content : Text) (rnd : String) (lines : List Text)
    (hl : IsLines lines (universalNewlines content)) (es : Log)
    (he : List.Forall₂ (LineIs T) lines es) :
    (es ≠ [] → ∃ p, readPublisherData T content rnd = .ok p ∧ Built es p ∧
      p.spends = es.map (·.2) ∧ p.name = rnd) ∧
    (es = [] → readPublisherData T content rnd = .error .valueError) := by
  unfold readPublisherData
  rw [hl.eq, readLines_ok T lines es he]
  simp only [bind, Except.bind, List.nil_append]
  constructor
  · intro hne
    obtain ⟨m, hm⟩ := pyMax_ok_of_ne_nil (es.map (·.2)) (by simpa using hne)
    have hp : PublisherData.new es "" rnd = .ok _ := (new_ok_iff _ _ _ _).2 ⟨m, hm, rfl⟩
    exact ⟨_, hp, ⟨_, _, hp⟩, rfl, rfl⟩
  · rintro rfl; rfl

/-- C06 (c): reading succeeds or fails for one of the two reasons above, nothing else. -/
theorem C06_only_outcomes (T : FloatText) (content : Text) (rnd : String) (lines : List Text)
    (hl : IsLines lines (universalNewlines content)) :
    (∃ es p, List.Forall₂ (LineIs T) lines es ∧ readPublisherData T content rnd = .ok p ∧
      Built es p) ∨
    (lines = [] ∧ readPublisherData T content rnd = .error .valueError) ∨
    (∃ n, 1 ≤ n ∧ n ≤ lines.length ∧ readPublisherData T content rnd = .error (.atLine n)) := by
  rcases split_good T lines with ⟨es, h⟩ | ⟨pre, bad, post, es, rfl, h2, h3⟩
  · obtain ⟨h1, h2⟩ := C06_reads_every_line T content rnd lines hl es h
    by_cases hne : es = []
    · right; left
      refine ⟨?_, h2 hne⟩
      subst hne
      cases h
      rfl
    · left
      obtain ⟨p, q1, q2, _⟩ := h1 hne
      exact ⟨es, p, h, q1, q2⟩
  · right; right
    refine ⟨pre.length + 1, by omega, by simp, ?_⟩
    unfold readPublisherData
    rw [hl.eq, readLines_bad T pre post bad es h2 h3]
    rfl

/-- C06 (d): every file has exactly one decomposition into lines, so the theorems above speak about
every file. -/
theorem C06_lines_exist (content : Text) :
    ∃ lines, IsLines lines (universalNewlines content) ∧
      ∀ lines', IsLines lines' (universalNewlines content) → lines' = lines :=
  ⟨_, isLines_pyLines _, fun _ h => h.eq.symm⟩

theorem parseDigits_sound (t : Text) : ∀ (prev : Bool) (s : Text) (v n : Nat),
    (prev = true → IsDigits s v) →
    (prev = false → (s = [] ∧ v = 0) ∨ ∃ s', s = s' ++ ['_'] ∧ IsDigits s' v) →
    parseDigits prev v t = some n → IsDigits (s ++ t) n := by
  induction t with
  | nil =>
    intro prev s v n h1 _ h
    rw [parseDigits] at h
    split at h
    · rename_i hp
      simp only [Option.some.injEq] at h
      subst h
      rw [List.append_nil]
      exact h1 hp
    · simp at h
  | cons c t ih =>
    intro prev s v n h1 h2 h
    rw [parseDigits] at h
    split at h
    · rename_i hc
      split at h
      · rename_i hp
        have := ih false (s ++ ['_']) v n (by simp) (fun _ => Or.inr ⟨s, rfl, h1 hp⟩) h
        rw [hc]
        simpa using this
      · simp at h
    · split at h
      · rename_i hd
        have hdig : IsDigit c (c.toNat - 48) := ⟨by omega, by omega⟩
        have hs : IsDigits (s ++ [c]) (10 * v + (c.toNat - 48)) := by
          cases prev with
          | true => exact .snoc s v c _ (h1 rfl) hdig
          | false =>
            rcases h2 rfl with ⟨rfl, rfl⟩ | ⟨s', rfl, hs'⟩
            · simpa using IsDigits.one c _ hdig
            · simpa using IsDigits.under s' v c _ hs' hdig
        have := ih true (s ++ [c]) _ n (fun _ => hs) (by simp) h
        simpa using this
      · simp at h

theorem isDigits_parse {s : Text} {n : Nat} (h : IsDigits s n) (t : Text) :
    parseDigits false 0 (s ++ t) = parseDigits true n t := by
  have hdig : ∀ (prev : Bool) (v d : Nat) (c : Char) (t : Text), IsDigit c d →
      parseDigits prev v (c :: t) = parseDigits true (10 * v + d) t := by
    intro prev v d c t hd
    rw [parseDigits_digit _ _ _ _ ⟨by have := hd.1; omega, by have := hd.1; have := hd.2; omega⟩,
      show c.toNat - 48 = d by have := hd.1; omega]
  induction h generalizing t with
  | one c d hd => rw [List.singleton_append, hdig _ _ _ _ _ hd]; simp
  | snoc s n c d _ hd ih =>
    rw [List.append_assoc, ih, List.singleton_append, hdig _ _ _ _ _ hd]
  | under s n c d _ hd ih =>
    rw [List.append_assoc, ih, List.cons_append, List.singleton_append, parseDigits, if_pos rfl,
      if_pos rfl, hdig _ _ _ _ _ hd]

theorem pySpace_iff (c : Char) : pySpace c = true ↔ Spec.IntSpace c := by
  unfold pySpace Spec.IntSpace
  simp only [Bool.or_eq_true, Bool.and_eq_true, beq_iff_eq, decide_eq_true_eq, List.mem_cons,
    List.not_mem_nil, or_false]
  omega

/-- Stripping gives `w` exactly for `w` with white space around it, if `w` has none itself. -/
theorem pyStrip_eq_iff (s w : Text) (hne : w ≠ []) (hw : ∀ c ∈ w, pySpace c = false) :
    pyStrip s = w ↔ ∃ pre post, (∀ c ∈ pre ++ post, pySpace c = true) ∧ s = pre ++ w ++ post := by
  unfold pyStrip
  constructor
  · intro h
    refine ⟨s.takeWhile pySpace, ((s.dropWhile pySpace).reverse.takeWhile pySpace).reverse, ?_, ?_⟩
    · intro c hc
      have all := fun l : Text => List.all_eq_true.1 (List.all_takeWhile (p := pySpace) (l := l))
      rcases List.mem_append.1 hc with h | h
      · exact all _ c h
      · exact all _ c (List.mem_reverse.1 h)
    · rw [← h, List.append_assoc, ← List.reverse_append, List.takeWhile_append_dropWhile,
        List.reverse_reverse, List.takeWhile_append_dropWhile]
  · rintro ⟨pre, post, h, rfl⟩
    have drop : ∀ (l x : Text), l ≠ [] → (∀ c ∈ l, pySpace c = false) →
        (l ++ x).dropWhile pySpace = l ++ x := by
      intro l x hl hs
      obtain ⟨c, l', rfl⟩ := List.exists_cons_of_ne_nil hl
      rw [List.cons_append, List.dropWhile_cons_of_neg]
      rw [hs c (by simp)]
      simp
    rw [List.append_assoc, List.dropWhile_append_of_pos (fun c hc => h c (by simp [hc])),
      drop w post hne hw, List.reverse_append,
      List.dropWhile_append_of_pos (fun c hc => h c (by simp [List.mem_reverse.1 hc])),
      ← List.append_nil w.reverse, drop w.reverse [] (by simpa using hne) (by simpa using hw),
      List.append_nil, List.reverse_reverse]

theorem isDigits_nospace {t : Text} {m : Nat} (h : IsDigits t m) :
    t ≠ [] ∧ ∀ c ∈ t, pySpace c = false := by
  have hd : ∀ (c : Char) (d : Nat), IsDigit c d → pySpace c = false := by
    intro c d h
    exact pySpace_digit c ⟨by have := h.1; omega, by have := h.1; have := h.2; omega⟩
  induction h with
  | one c d h => exact ⟨by simp, by intro x hx; rw [List.mem_singleton] at hx; exact hx ▸ hd c d h⟩
  | snoc s n c d _ h ih =>
    refine ⟨by simp, ?_⟩
    intro x hx
    rcases List.mem_append.1 hx with hx | hx
    · exact ih.2 x hx
    · rw [List.mem_singleton] at hx
      exact hx ▸ hd c d h
  | under s n c d _ h ih =>
    refine ⟨by simp, ?_⟩
    intro x hx
    rcases List.mem_append.1 hx with hx | hx
    · exact ih.2 x hx
    · rcases List.mem_cons.1 hx with rfl | hx
      · decide
      · rw [List.mem_singleton] at hx
        exact hx ▸ hd c d h

theorem parseInt_iff_strip (s : Text) (n : Int) :
    parseInt s = some n ↔
      ∃ (t : Text) (m : Nat), IsDigits t m ∧
        ((pyStrip s = t ∧ n = m) ∨ (pyStrip s = '+' :: t ∧ n = m) ∨ (pyStrip s = '-' :: t ∧ n = -m)) := by
  have key : ∀ (t : Text) (m : Nat), parseDigits false 0 t = some m ↔ IsDigits t m := by
    intro t m
    constructor
    · intro h
      have := parseDigits_sound t false [] 0 m (by simp) (fun _ => Or.inl ⟨rfl, rfl⟩) h
      simpa using this
    · intro h
      have := isDigits_parse h []
      rw [List.append_nil] at this
      rw [this]; rfl
  have hsign : ∀ (c : Char) (t : Text) (m : Nat), (c = '-' ∨ c = '+') → ¬ IsDigits (c :: t) m := by
    intro c t m hc h
    rw [← key] at h
    rcases hc with rfl | rfl <;> simp [parseDigits] at h
  unfold parseInt
  generalize pyStrip s = w
  split
  · rename_i rest
    simp only [Option.map_eq_some_iff, key]
    constructor
    · rintro ⟨m, h1, rfl⟩
      exact ⟨rest, m, h1, Or.inr (Or.inr ⟨rfl, rfl⟩)⟩
    · rintro ⟨t, m, h1, ⟨h2, h3⟩ | ⟨h2, h3⟩ | ⟨h2, h3⟩⟩
      · subst h2; exact absurd h1 (hsign _ _ _ (Or.inl rfl))
      · simp at h2
      · simp only [List.cons.injEq, true_and] at h2
        subst h2
        exact ⟨m, h1, h3.symm⟩
  · rename_i rest
    simp only [Option.map_eq_some_iff, key]
    constructor
    · rintro ⟨m, h1, rfl⟩
      exact ⟨rest, m, h1, Or.inr (Or.inl ⟨rfl, rfl⟩)⟩
    · rintro ⟨t, m, h1, ⟨h2, h3⟩ | ⟨h2, h3⟩ | ⟨h2, h3⟩⟩
      · subst h2; exact absurd h1 (hsign _ _ _ (Or.inr rfl))
      · simp only [List.cons.injEq, true_and] at h2
        subst h2
        exact ⟨m, h1, h3.symm⟩
      · simp at h2
  · rename_i hn1 hn2
    simp only [Option.map_eq_some_iff, key]
    constructor
    · rintro ⟨m, h1, rfl⟩
      exact ⟨w, m, h1, Or.inl ⟨rfl, rfl⟩⟩
    · rintro ⟨t, m, h1, ⟨h2, h3⟩ | ⟨h2, h3⟩ | ⟨h2, h3⟩⟩
      · subst h2; exact ⟨m, h1, h3.symm⟩
      · exact absurd h2 (hn2 t)
      · exact absurd h2 (hn1 t)

/-- C06 (e): an id is accepted exactly if it is white space, an optional sign, digits with single
underscores between them, and white space; it is the number so written. -/
theorem C06_id_syntax (s : Text) (n : Int) :
    parseInt s = some n ↔
      ∃ (pre sign t post : Text) (m : Nat), s = pre ++ (sign ++ t) ++ post ∧
        (∀ c ∈ pre ++ post, Spec.IntSpace c) ∧ IsDigits t m ∧
        ((sign = [] ∧ n = m) ∨ (sign = ['+'] ∧ n = m) ∨ (sign = ['-'] ∧ n = -m)) := by
  have sp : ∀ (t : Text) (m : Nat) (sign : Text), IsDigits t m → sign = [] ∨ sign = ['+'] ∨ sign = ['-'] →
      (pyStrip s = sign ++ t ↔
        ∃ pre post, (∀ c ∈ pre ++ post, Spec.IntSpace c) ∧ s = pre ++ (sign ++ t) ++ post) := by
    intro t m sign ht hs
    obtain ⟨h1, h2⟩ := isDigits_nospace ht
    rw [pyStrip_eq_iff s (sign ++ t) (by simp [h1]) ?_]
    · simp only [pySpace_iff]
    · intro c hc
      rcases List.mem_append.1 hc with hc | hc
      · rcases hs with rfl | rfl | rfl
        · simp at hc
        · rw [List.mem_singleton] at hc; subst hc; decide
        · rw [List.mem_singleton] at hc; subst hc; decide
      · exact h2 c hc
  rw [parseInt_iff_strip]
  constructor
  · rintro ⟨t, m, ht, ⟨h, hn⟩ | ⟨h, hn⟩ | ⟨h, hn⟩⟩
    · obtain ⟨pre, post, h1, h2⟩ := (sp t m [] ht (Or.inl rfl)).1 h
      exact ⟨pre, [], t, post, m, h2, h1, ht, Or.inl ⟨rfl, hn⟩⟩
    · obtain ⟨pre, post, h1, h2⟩ := (sp t m ['+'] ht (Or.inr (Or.inl rfl))).1 h
      exact ⟨pre, _, t, post, m, h2, h1, ht, Or.inr (Or.inl ⟨rfl, hn⟩)⟩
    · obtain ⟨pre, post, h1, h2⟩ := (sp t m ['-'] ht (Or.inr (Or.inr rfl))).1 h
      exact ⟨pre, _, t, post, m, h2, h1, ht, Or.inr (Or.inr ⟨rfl, hn⟩)⟩
  · rintro ⟨pre, sign, t, post, m, hs, hsp, ht, ⟨rfl, hn⟩ | ⟨rfl, hn⟩ | ⟨rfl, hn⟩⟩
    · exact ⟨t, m, ht, Or.inl ⟨(sp t m [] ht (Or.inl rfl)).2 ⟨pre, post, hsp, hs⟩, hn⟩⟩
    · exact ⟨t, m, ht, Or.inr (Or.inl ⟨(sp t m ['+'] ht (Or.inr (Or.inl rfl))).2 ⟨pre, post, hsp, hs⟩, hn⟩)⟩
    · exact ⟨t, m, ht, Or.inr (Or.inr ⟨(sp t m ['-'] ht (Or.inr (Or.inr rfl))).2 ⟨pre, post, hsp, hs⟩, hn⟩)⟩

/-- A no-break space and a line feed are removed, a file separator (28) is not. -/
example : parseInt [Char.ofNat 160, '-', '1', '_', '2', '\n'] = some (-12) ∧
    parseInt [Char.ofNat 28, '5'] = none := by decide +kernel

/-- C06 (f): it does not matter whether lines end with `\n`, `\r\n` or `\r`. -/
theorem C06_line_endings (T : FloatText) (t : Text) (rnd : String) (h : '\r' ∉ t) :
    readPublisherData T (t.flatMap (fun c => if c = '\n' then ['\r', '\n'] else [c])) rnd
        = readPublisherData T t rnd ∧
    readPublisherData T (t.map (fun c => if c = '\n' then '\r' else c)) rnd
        = readPublisherData T t rnd := by
  have hc : ∀ (c : Char) (s : Text), c ≠ '\r' → universalNewlines (c :: s) = c :: universalNewlines s := by
    intro c s hne
    conv_lhs => unfold universalNewlines
    split
    · rename_i heq; simp at heq
    · rename_i heq; simp only [List.cons.injEq] at heq; exact absurd heq.1 hne
    · rename_i heq; simp only [List.cons.injEq] at heq; exact absurd heq.1 hne
    · rename_i heq; simp only [List.cons.injEq] at heq
      obtain ⟨rfl, rfl⟩ := heq
      rfl
  have h1 : universalNewlines (t.flatMap (fun c => if c = '\n' then ['\r', '\n'] else [c]))
      = universalNewlines t := by
    induction t with
    | nil => rfl
    | cons c t ih =>
      have hne : c ≠ '\r' := by rintro rfl; simp at h
      have ih := ih (fun h' => h (by simp [h']))
      rw [List.flatMap_cons, hc c t hne]
      by_cases hcn : c = '\n'
      · rw [if_pos hcn]
        rw [List.cons_append, List.singleton_append, universalNewlines, ih, hcn]
      · rw [if_neg hcn, List.singleton_append, hc c _ hne, ih]
  have h2 : universalNewlines (t.map (fun c => if c = '\n' then '\r' else c))
      = universalNewlines t := by
    clear h1
    induction t with
    | nil => rfl
    | cons c t ih =>
      have hne : c ≠ '\r' := by rintro rfl; simp at h
      have ht : '\r' ∉ t := fun h' => h (by simp [h'])
      have ih := ih ht
      rw [List.map_cons, hc c t hne]
      by_cases hcn : c = '\n'
      · rw [if_pos hcn, hcn]
        have hnext : ∀ rest, t.map (fun c => if c = '\n' then '\r' else c) ≠ '\n' :: rest := by
          intro rest hh
          have : '\n' ∈ t.map (fun c => if c = '\n' then '\r' else c) := by rw [hh]; simp
          obtain ⟨x, _, hx⟩ := List.mem_map.1 this
          split at hx
          · simp at hx
          · contradiction
        rw [← ih]
        generalize t.map (fun c => if c = '\n' then '\r' else c) = w at hnext
        conv_lhs => unfold universalNewlines
        split
        · rename_i heq; simp at heq
        · rename_i heq
          simp only [List.cons.injEq, true_and] at heq
          exact absurd heq (hnext _)
        · rename_i heq
          simp only [List.cons.injEq, true_and] at heq
          rw [heq]
        · rename_i h3 heq
          simp only [List.cons.injEq] at heq
          exact absurd heq.1.symm (h3)
      · rw [if_neg hcn, hc c _ hne, ih]
  unfold readPublisherData
  rw [h1, h2]
  exact ⟨rfl, rfl⟩

example : '\r' ∉ "7,1\n8,2\n".toList := by decide +kernel

example : IsDigits "1_0".toList 10 :=
  .under ['1'] 1 '0' 0 (.one '1' 1 ⟨by decide, by decide⟩) ⟨by decide, by decide⟩

example : parseInt " -12\n".toList = some (-12) ∧ parseInt "1__2".toList = none ∧
    parseInt "".toList = none ∧ parseInt "1.5".toList = none := by decide +kernel

example : IsLines ["7,1\n".toList, "8\n".toList, "9,,2".toList] "7,1\n8\n9,,2".toList := by
  have : IsLines (pyLines "7,1\n8\n9,,2".toList) _ := isLines_pyLines _
  exact this

example : readPublisherData exText "7,1\n8\n9,,2".toList "r" = .error (.atLine 2) := by
  decide +kernel

example : readPublisherData exText "7,1\r\n 8 ,2\n-1_0,3".toList "r"
    = PublisherData.new [(7, 1), (8, 2), (-10, 3)] "" "r" := by decide +kernel

example : readPublisherData exText [] "r" = .error .valueError := by decide +kernel

/-! ## C05 -/

/-- C05 as worded: the publisher read back answers every query as the one written. -/
def C05_full : Prop :=
  ∀ (T : FloatText) (log : Log) (name rnd rnd' : String) (p : PublisherData),
    PublisherData.new log name rnd = .ok p → (∀ e ∈ log, Printable T e.2) →
    ∃ q, readPublisherData T (p.write T) rnd' = .ok q ∧ q.data = p.data ∧
      q.maxSpend = p.maxSpend ∧ q.maxReach = p.maxReach ∧
      (∀ n : Int, q.spendByImpressions n = p.spendByImpressions n) ∧
      (∀ n : Int, q.userCountsByImpressions n = p.userCountsByImpressions n) ∧
      (∀ s, q.userCountsBySpend s = p.userCountsBySpend s) ∧
      (∀ s, q.impressionsBySpend s = p.impressionsBySpend s)

/-- C05 (a): reading back gives the publisher built from the sorted log, hence the same log ordered
by spend, the same totals, and the same answers to every query except `impressions_by_spend`, which
after reading is correct for every spend, whatever it was before (see C01). Missing for the full
statement: `impressions_by_spend` of the written object when its log was not sorted. -/
theorem C05_round_trip_partial (T : FloatText) (log : Log) (name rnd rnd' : String)
    (p : PublisherData) (hp : PublisherData.new log name rnd = .ok p)
    (hT : ∀ e ∈ log, Printable T e.2) :
    ∃ q, readPublisherData T (p.write T) rnd' = .ok q ∧ q.data = p.data ∧
      q.maxSpend = p.maxSpend ∧ q.maxReach = p.maxReach ∧
      (∀ n : Int, q.spendByImpressions n = p.spendByImpressions n) ∧
      (∀ n : Int, q.userCountsByImpressions n = p.userCountsByImpressions n) ∧
      (∀ s, q.userCountsBySpend s = p.userCountsBySpend s) ∧
      (∀ s, q.impressionsBySpend s = affordable log s) ∧
      Built (sortBySpend log) q := by
  obtain ⟨m, hm, rfl⟩ := (new_ok_iff _ _ _ _).1 hp
  have hperm := sortBySpend_perm log
  have hne : log ≠ [] := by rintro rfl; simp [pyMax] at hm
  have hne' : sortBySpend log ≠ [] := by
    intro h
    rw [h] at hperm
    exact hne (List.nil_perm.1 hperm)
  obtain ⟨w1, w2, w3⟩ := write_lines T (sortBySpend log) (fun e he => hT e (hperm.mem_iff.1 he))
  obtain ⟨q, hq, hb, hs, -⟩ := (C06_reads_every_line T _ rnd' _
    (by rw [universalNewlines_id _ w3]; exact w1) _ w2).1 hne'
  have hsorted := sortBySpend_pairwise log
  have hd : q.data = sortBySpend log := by
    rw [hb.data_eq, sortBySpend_of_sorted _ hsorted]
  refine ⟨q, hq, hd, ?_, ?_, ?_, ?_, ?_, ?_, hb⟩
  · obtain ⟨nm, r, hb⟩ := hb
    obtain ⟨m', hm', rfl⟩ := (new_ok_iff _ _ _ _).1 hb
    obtain ⟨a1, a2⟩ := pyMax_spec _ _ hm
    obtain ⟨b1, b2⟩ := pyMax_spec _ _ hm'
    have hp2 := hperm.map (·.2)
    exact le_antisymm (a1 _ (hp2.mem_iff.1 b2)) (b1 _ (hp2.mem_iff.2 a2))
  · obtain ⟨nm, r, hb⟩ := hb
    obtain ⟨m', hm', rfl⟩ := (new_ok_iff _ _ _ _).1 hb
    exact (hperm.map (·.1)).dedup.length_eq
  · intro n; simp only [PublisherData.spendByImpressions, hd]
  · intro n; simp only [PublisherData.userCountsByImpressions, hd]
  · intro s; simp only [PublisherData.userCountsBySpend, hd]
  · intro s
    obtain ⟨nm, r, hb⟩ := hb
    rw [C01_impressions_by_spend_partial _ nm r q s hb hsorted]
    exact hperm.countP_eq _

/-- C05 (b): a log that was sorted comes back as the same object up to its name, so every query has
the same answer. -/
theorem C05_round_trip_sorted (T : FloatText) (log : Log) (name rnd rnd' : String)
    (p : PublisherData) (hp : PublisherData.new log name rnd = .ok p)
    (hT : ∀ e ∈ log, Printable T e.2) (hs : log.Pairwise (fun a b => a.2 ≤ b.2)) :
    readPublisherData T (p.write T) rnd' = .ok { p with name := rnd' } := by
  obtain ⟨m, hm, rfl⟩ := (new_ok_iff _ _ _ _).1 hp
  have hsort := sortBySpend_of_sorted log hs
  obtain ⟨w1, w2, w3⟩ := write_lines T log hT
  unfold readPublisherData PublisherData.write
  simp only [hsort]
  rw [universalNewlines_id _ w3, w1.eq, readLines_ok T _ _ w2]
  simp only [List.nil_append, bind, Except.bind]
  exact (new_ok_iff _ _ _ _).2 ⟨m, hm, by simp [hsort]⟩

/-- C05 as worded is false: for an unsorted log `impressions_by_spend` changes. -/
theorem C05_full_is_false : ¬ C05_full := by
  intro h
  have hp : PublisherData.new [(1, 3), (2, 1)] "p" "" = .ok
    { data := [(2, 1), (1, 3)], spends := [3, 1], maxSpend := 3, maxReach := 2, name := "p" } := by
    decide +kernel
  obtain ⟨q, hq, -, -, -, -, -, -, h4⟩ := h exText [(1, 3), (2, 1)] "p" "" "" _ hp
    (by unfold Printable; decide +kernel)
  have : readPublisherData exText (PublisherData.write exText
      { data := [(2, 1), (1, 3)], spends := [3, 1], maxSpend := 3, maxReach := 2, name := "p" }) ""
      = .ok { data := [(2, 1), (1, 3)], spends := [1, 3], maxSpend := 3, maxReach := 2,
              name := "" } := by
    decide +kernel
  rw [this] at hq
  simp only [Except.ok.injEq] at hq
  subst hq
  exact absurd (h4 1) (by decide +kernel)

example : ∀ e ∈ ([(-12, 3), (40, 1), (40, 1000)] : Log), Printable exText e.2 := by
  unfold Printable
  decide +kernel

/-- A publisher for the examples. -/
def exFilePub : PublisherData :=
  ⟨[(-12, 3), (40, 1000)], [3, 1000], 1000, 2, "p"⟩

example : PublisherData.write exText exFilePub = "-12,3\n40,1000\n".toList := by decide +kernel

end Verif
