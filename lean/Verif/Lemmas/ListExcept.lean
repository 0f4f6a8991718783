import Verif.Lemmas.PublisherData
import Mathlib.Data.List.Forall2

/-! # Loops that may raise -/

namespace Verif

theorem mapM_ok_iff {α β : Type} (f : α → Except PyErr β) (l : List α) (l' : List β) :
    l.mapM f = .ok l' ↔ List.Forall₂ (fun a b => f a = .ok b) l l' := by
  induction l generalizing l' with
  | nil =>
    simp only [List.mapM_nil, List.forall₂_nil_left_iff]
    constructor
    · intro h; cases h; rfl
    · rintro rfl; rfl
  | cons a l ih =>
    rw [List.mapM_cons, List.forall₂_cons_left_iff]
    constructor
    · intro h
      rcases ha : f a with e | b
      · rw [ha] at h; cases h
      · rw [ha] at h
        rcases hl : l.mapM f with e | bs
        · rw [hl] at h; cases h
        · rw [hl] at h
          cases h
          exact ⟨b, bs, rfl, (ih bs).1 hl, rfl⟩
    · rintro ⟨b, bs, hb, hbs, rfl⟩
      rw [hb, (ih bs).2 hbs]
      rfl

theorem forall₂_zipIdx {α β : Type} {R : α × Nat → β → Prop} {l : List α} {l' : List β}
    (h : List.Forall₂ R l.zipIdx l') :
    l'.length = l.length ∧ ∀ i (hi : i < l.length) (hi' : i < l'.length), R (l[i], i) l'[i] := by
  have hl := h.length_eq
  rw [List.length_zipIdx] at hl
  refine ⟨hl.symm, ?_⟩
  intro i hi hi'
  have := h.get (i := i) (by simpa using hi) hi'
  simpa using this

theorem forall₂_zipIdx_of {α β : Type} {R : α × Nat → β → Prop} {l : List α} {l' : List β}
    (hl : l'.length = l.length)
    (h : ∀ i (hi : i < l.length) (hi' : i < l'.length), R (l[i], i) l'[i]) :
    List.Forall₂ R l.zipIdx l' := by
  rw [List.forall₂_iff_get]
  refine ⟨by simp [hl], ?_⟩
  intro i hi hi'
  have := h i (by simpa using hi) hi'
  simpa using this

theorem pyIndex_ok_iff {α : Type} (l : List α) (i : Nat) (x : α) :
    pyIndex l (i : Int) = .ok x ↔ l[i]? = some x := by
  unfold pyIndex
  have : ¬ ((i : Int) < 0) := by omega
  simp only [this, if_false, Int.toNat_natCast]
  cases l[i]? <;> simp

end Verif
