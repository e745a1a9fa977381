import Verif.Props.Chain
import Mathlib.Tactic.Ring
import Mathlib.Tactic.FieldSimp
import Mathlib.Algebra.Order.BigOperators.Group.List

/-! Lemmas about column updates, dot products and the mean shift. -/

namespace CC

theorem lookup_map_ne {β : Type _} (d : List (String × β)) {p q : String} (h : q ≠ p) (v : β) :
    (d.map fun c => if c.1 = p then (p, v) else c).lookup q = d.lookup q := by
  induction d with
  | nil => rfl
  | cons e d ih =>
    obtain ⟨a, b⟩ := e
    by_cases ha : a = p
    · subst ha
      have : (q == a) = false := by simpa using h
      simp only [List.map_cons, if_true, List.lookup_cons, this, ih]
    · simp only [List.map_cons, ha, if_false, List.lookup_cons, ih]

theorem lookup_map_self {β : Type _} (d : List (String × β)) {p : String}
    (h : p ∈ d.map Prod.fst) (v : β) :
    (d.map fun c => if c.1 = p then (p, v) else c).lookup p = some v := by
  induction d with
  | nil => simp at h
  | cons e d ih =>
    obtain ⟨a, b⟩ := e
    by_cases ha : a = p
    · subst ha; simp
    · have : (p == a) = false := by simpa using Ne.symm ha
      simp only [List.map_cons, ha, if_false, List.lookup_cons, this]
      apply ih
      simpa [Ne.symm ha] using h

section
variable {K : Type}

theorem columns_set (f : Frame K) (p : String) (v : List K) : (f.set p v).columns = f.columns := by
  simp only [Frame.columns, Frame.set, List.map_map]
  apply List.map_congr_left
  intro c _
  simp only [Function.comp_apply]
  split
  · rename_i h; exact h.symm
  · rfl

theorem get_set_ne (f : Frame K) {p q : String} (h : q ≠ p) (v : List K) :
    (f.set p v).get q = f.get q := by
  simp only [Frame.get, Frame.set, lookup_map_ne _ h]

theorem get_set_self (f : Frame K) {p : String} (h : p ∈ f.columns) (v : List K) :
    (f.set p v).get p = .ok v := by
  simp only [Frame.get, Frame.set, lookup_map_self _ h]

theorem mem_columns_of_get {f : Frame K} {p : String} {x : List K} (h : f.get p = .ok x) :
    p ∈ f.columns := by
  simp only [Frame.get] at h
  split at h
  · cases h
  · rename_i v hv
    exact List.mem_map.2 ⟨_, lookup_mem hv, rfl⟩

theorem get_mem {f : Frame K} {p : String} {x : List K} (h : f.get p = .ok x) :
    (p, x) ∈ f.cols := by
  simp only [Frame.get] at h
  split at h
  · cases h
  · rename_i v hv
    cases h
    exact lookup_mem hv

theorem get_of_mem {f : Frame K} (hf : f.columns.Nodup) {p : String} {x : List K}
    (h : (p, x) ∈ f.cols) : f.get p = .ok x := by
  simp [Frame.get, lookup_eq_some_of_mem hf h]

end

section
variable {K : Type} [Field K]

theorem dot_nil_left (w : List K) : dot [] w = 0 := rfl

theorem dot_cons (x : K) (xs : List K) (w : K) (ws : List K) :
    dot (x :: xs) (w :: ws) = x * w + dot xs ws := by simp [dot]

theorem dot_sub_const {x w : List K} (h : x.length = w.length) (m : K) :
    dot (x.map (· - m)) w = dot x w - m * w.sum := by
  induction x generalizing w with
  | nil => cases w with
    | nil => simp [dot]
    | cons _ _ => simp at h
  | cons a x ih => cases w with
    | nil => simp at h
    | cons b w =>
      simp only [List.map_cons, dot_cons, List.sum_cons]
      rw [ih (by simpa using h)]
      ring

theorem dot_comm (x w : List K) : dot x w = dot w x := by
  simp only [dot]
  rw [List.zipWith_comm]
  congr 2
  funext a b
  exact mul_comm _ _

variable [LinearOrder K]

theorem average_ok_iff {x w : List K} {m : K} :
    average x w = .ok m ↔ w.sum ≠ 0 ∧ m = dot x w / w.sum := by
  simp only [average]
  split
  · rename_i h; simp [h]
  · rename_i h; simp [h, eq_comm]

theorem shiftColumn_ok_iff {wc : String} {f f' : Frame K} {p : String} :
    shiftColumn wc f p = .ok f' ↔
      ∃ w x m, f.get wc = .ok w ∧ f.get p = .ok x ∧ average x w = .ok m ∧
        f' = f.set p (x.map (· - m)) := by
  simp only [shiftColumn, bind_ok_iff, pure_ok_iff]
  constructor
  · rintro ⟨w, hw, x, hx, m, hm, rfl⟩; exact ⟨w, x, m, hw, hx, hm, rfl⟩
  · rintro ⟨w, x, m, hw, hx, hm, rfl⟩; exact ⟨w, hw, x, hx, m, hm, rfl⟩

/-- Shifting the columns `ps` keeps all other columns, the labels and the index. -/
theorem shift_fold_other {wc : String} {ps : List String} {f f' : Frame K}
    (h : ps.foldlM (shiftColumn wc) f = .ok f') :
    f'.columns = f.columns ∧ f'.index = f.index ∧ ∀ q, q ∉ ps → f'.get q = f.get q := by
  induction ps generalizing f with
  | nil => cases h; exact ⟨rfl, rfl, fun _ _ => rfl⟩
  | cons p ps ih =>
    rw [List.foldlM_cons, bind_ok_iff] at h
    obtain ⟨g, hg, h⟩ := h
    obtain ⟨w, x, m, hw, hx, hm, rfl⟩ := shiftColumn_ok_iff.1 hg
    obtain ⟨h1, h2, h3⟩ := ih h
    refine ⟨by rw [h1, columns_set], by rw [h2]; rfl, fun q hq => ?_⟩
    simp only [List.mem_cons, not_or] at hq
    rw [h3 q hq.2, get_set_ne _ hq.1]

/-- A column processed before the weight column is shifted by its average under the original
weights. -/
theorem shift_fold_before {wc : String} {pre post : List String} {q : String} {f f' : Frame K}
    (h : (pre ++ q :: post).foldlM (shiftColumn wc) f = .ok f')
    (hq : q ∉ pre ∧ q ∉ post) (hwc : wc ∉ pre) :
    ∃ w x m, f.get wc = .ok w ∧ f.get q = .ok x ∧ average x w = .ok m ∧
      f'.get q = .ok (x.map (· - m)) := by
  rw [List.foldlM_append, bind_ok_iff] at h
  obtain ⟨g, hg, h⟩ := h
  rw [List.foldlM_cons, bind_ok_iff] at h
  obtain ⟨k, hk, h⟩ := h
  obtain ⟨g1, g2, g3⟩ := shift_fold_other hg
  obtain ⟨w, x, m, hw, hx, hm, rfl⟩ := shiftColumn_ok_iff.1 hk
  obtain ⟨-, -, k3⟩ := shift_fold_other h
  rw [g3 wc hwc] at hw
  rw [g3 q hq.1] at hx
  refine ⟨w, x, m, hw, hx, hm, ?_⟩
  rw [k3 q hq.2, get_set_self]
  rw [g1]; exact mem_columns_of_get hx

variable [IsStrictOrderedRing K]

theorem sum_pos_of_pos {w : List K} (h : ∀ x ∈ w, 0 < x) (hne : w ≠ []) : 0 < w.sum := by
  induction w with
  | nil => exact absurd rfl hne
  | cons a w ih =>
    rw [List.sum_cons]
    have ha := h a List.mem_cons_self
    by_cases hw : w = []
    · subst hw; simpa using ha
    · exact add_pos ha (ih (fun x hx => h x (List.mem_cons_of_mem _ hx)) hw)

theorem sum_nonneg_of_nonneg {w : List K} (h : ∀ x ∈ w, 0 ≤ x) : 0 ≤ w.sum :=
  List.sum_nonneg h

/-- If every weight exceeds `m` then `Σ w² > m Σ w`. -/
theorem dot_self_gt {w : List K} {m : K} (hpos : ∀ x ∈ w, 0 < x) (h : ∀ x ∈ w, m < x)
    (hne : w ≠ []) : m * w.sum < dot w w := by
  induction w with
  | nil => exact absurd rfl hne
  | cons a w ih =>
    rw [List.sum_cons, dot_cons]
    have ha := hpos a List.mem_cons_self
    have hma := h a List.mem_cons_self
    have h1 : m * a < a * a := by nlinarith
    by_cases hw : w = []
    · subst hw; simpa [dot] using h1
    · have := ih (fun x hx => hpos x (List.mem_cons_of_mem _ hx))
        (fun x hx => h x (List.mem_cons_of_mem _ hx)) hw
      linarith [mul_add m a w.sum]

/-- The average of positive weights under themselves is at least the smallest weight. -/
theorem exists_le_self_average {w : List K} {m : K} (hpos : ∀ x ∈ w, 0 < x) (hne : w ≠ [])
    (hm : average w w = .ok m) : ∃ x ∈ w, x - m ≤ 0 := by
  by_contra hcon
  have hall : ∀ x ∈ w, m < x := by
    intro x hx
    by_contra hlt
    exact hcon ⟨x, hx, by linarith [not_lt.1 hlt]⟩
  have := dot_self_gt hpos hall hne
  obtain ⟨h0, rfl⟩ := average_ok_iff.1 hm
  rw [div_mul_cancel₀ _ h0] at this
  exact lt_irrefl _ this

end

end CC
