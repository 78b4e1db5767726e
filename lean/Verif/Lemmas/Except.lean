import Mathlib.Data.List.Forall2
import Verif.Model.Basic

/-! Helper lemmas about loops in the exception monad. -/

namespace Resistics

theorem except_bind_ok {ε α β : Type _} {x : Except ε α} {f : α → Except ε β} {b : β} :
    (x >>= f) = .ok b ↔ ∃ a, x = .ok a ∧ f a = .ok b := by
  cases x <;> simp [bind, Except.bind]

theorem except_pure_ok {ε α : Type _} {a b : α} : (pure a : Except ε α) = .ok b ↔ a = b := by
  simp [pure, Except.pure]

theorem mapM_ok_iff {ε α β : Type _} {f : α → Except ε β} {l : List α} {l' : List β} :
    l.mapM f = .ok l' ↔ List.Forall₂ (fun a b => f a = .ok b) l l' := by
  induction l generalizing l' with
  | nil =>
    simp only [List.mapM_nil, except_pure_ok]
    constructor
    · rintro rfl; exact List.Forall₂.nil
    · intro h; cases h; rfl
  | cons a l ih =>
    rw [List.mapM_cons, except_bind_ok]
    constructor
    · rintro ⟨b, hb, h⟩
      rw [except_bind_ok] at h
      obtain ⟨bs, hbs, h⟩ := h
      rw [except_pure_ok] at h
      subst h
      exact List.Forall₂.cons hb (ih.mp hbs)
    · intro h
      cases h with
      | cons h1 h2 => exact ⟨_, h1, except_bind_ok.mpr ⟨_, ih.mpr h2, rfl⟩⟩

theorem mapM_ok_length {ε α β : Type _} {f : α → Except ε β} {l : List α} {l' : List β}
    (h : l.mapM f = .ok l') : l'.length = l.length :=
  (List.Forall₂.length_eq (mapM_ok_iff.mp h)).symm

theorem mapM_ok_map {ε α β : Type _} {f : α → Except ε β} {g : α → β} {l : List α}
    (h : ∀ a ∈ l, f a = .ok (g a)) : l.mapM f = .ok (l.map g) := by
  induction l with
  | nil => rfl
  | cons a l ih =>
    rw [List.mapM_cons, h a (by simp), ih (fun b hb => h b (by simp [hb]))]; rfl

theorem mapM_ok_getElem {ε α β : Type _} {f : α → Except ε β} {l : List α} {l' : List β}
    (h : l.mapM f = .ok l') (i : ℕ) (hi : i < l.length) (hi' : i < l'.length) :
    f l[i] = .ok l'[i] := by
  have h1 := mapM_ok_iff.mp h
  induction h1 generalizing i with
  | nil => simp at hi
  | cons h1 h2 ih =>
    cases i with
    | zero => exact h1
    | succ i => exact ih (mapM_ok_iff.mpr h2) i (by simpa using hi) (by simpa using hi')

/-- every error of a `mapM` is an error of one of its elements -/
theorem mapM_error {ε α β : Type _} {f : α → Except ε β} {l : List α} {e : ε}
    (h : l.mapM f = .error e) : ∃ a ∈ l, f a = .error e := by
  induction l with
  | nil => simp [pure, Except.pure] at h
  | cons a l ih =>
    rw [List.mapM_cons] at h
    cases ha : f a with
    | error e' =>
      rw [ha] at h
      simp only [bind, Except.bind, Except.error.injEq] at h
      exact ⟨a, by simp, by rw [ha, h]⟩
    | ok b =>
      rw [ha] at h
      simp only [bind, Except.bind] at h
      cases hl : l.mapM f with
      | error e' =>
        rw [hl] at h
        simp only [Except.error.injEq] at h
        subst h
        obtain ⟨x, hx, hfx⟩ := ih hl
        exact ⟨x, by simp [hx], hfx⟩
      | ok bs => rw [hl] at h; simp [pure, Except.pure] at h

/-- an invariant of the loop body is an invariant of the loop -/
theorem foldlM_inv {ε α σ : Type _} {f : σ → α → Except ε σ} (P : σ → Prop) {l : List α} {s s' : σ}
    (h : l.foldlM f s = .ok s') (h0 : P s)
    (hstep : ∀ s a s', a ∈ l → P s → f s a = .ok s' → P s') : P s' := by
  induction l generalizing s with
  | nil => simp [pure, Except.pure] at h; exact h ▸ h0
  | cons a l ih =>
    rw [List.foldlM_cons, except_bind_ok] at h
    obtain ⟨t, ht, h⟩ := h
    exact ih h (hstep s a t (by simp) h0 ht) (fun s b s' hb => hstep s b s' (by simp [hb]))

end Resistics
