import Verif.Model.Basic
import Mathlib.Data.List.Forall2

/-! Inversion lemmas for the exception monad. -/

namespace CC

theorem bind_ok_iff {α β : Type _} {x : Res α} {f : α → Res β} {b : β} :
    (x >>= f) = .ok b ↔ ∃ a, x = .ok a ∧ f a = .ok b := by
  cases x with
  | error e => simp [bind, Except.bind]
  | ok a => simp [bind, Except.bind]

theorem bind_error_iff {α β : Type _} {x : Res α} {f : α → Res β} {e : Err} :
    (x >>= f) = .error e ↔ x = .error e ∨ ∃ a, x = .ok a ∧ f a = .error e := by
  cases x with
  | error e => simp [bind, Except.bind]
  | ok a => simp [bind, Except.bind]

theorem ensure_ok_iff {e : Err} {b : Bool} {u : Unit} : ensure e b = .ok u ↔ b = true := by
  cases b <;> simp [ensure]

theorem ensure_error_iff {e e' : Err} {b : Bool} : ensure e b = .error e' ↔ b = false ∧ e = e' := by
  cases b <;> simp [ensure]

theorem pure_ok_iff {α : Type _} {a b : α} : (pure a : Res α) = .ok b ↔ a = b := by
  simp [pure, Except.pure]

theorem ok_ne_error {α : Type _} {x : Res α} {a : α} (h : x = .ok a) : ∀ e, x ≠ .error e := by
  simp [h]

theorem exists_ok_or_error {α : Type _} (x : Res α) : (∃ a, x = .ok a) ∨ ∃ e, x = .error e := by
  cases x <;> simp

theorem mapM_ok_iff {α β : Type _} {f : α → Res β} {l : List α} {r : List β} :
    l.mapM f = .ok r ↔ List.Forall₂ (fun a b => f a = .ok b) l r := by
  induction l generalizing r with
  | nil => simp [List.mapM_nil, pure, Except.pure, eq_comm]
  | cons a l ih =>
    rw [List.mapM_cons, bind_ok_iff]
    constructor
    · rintro ⟨b, hb, h⟩
      rw [bind_ok_iff] at h
      obtain ⟨bs, hbs, h⟩ := h
      cases h
      exact .cons hb (ih.1 hbs)
    · intro h
      cases h with
      | cons hb hbs => exact ⟨_, hb, bind_ok_iff.2 ⟨_, ih.2 hbs, rfl⟩⟩

theorem mapM_ok_mem {α β : Type _} {f : α → Res β} {l : List α} {r : List β} (h : l.mapM f = .ok r) {x : α} (hx : x ∈ l) :
    ∃ y ∈ r, f x = .ok y := by
  replace h := mapM_ok_iff.1 h
  induction h with
  | nil => cases hx
  | cons hd _ ih =>
    rcases List.mem_cons.1 hx with rfl | hx
    · exact ⟨_, List.mem_cons_self, hd⟩
    · obtain ⟨y, hy, e⟩ := ih hx
      exact ⟨y, List.mem_cons_of_mem _ hy, e⟩

end CC
