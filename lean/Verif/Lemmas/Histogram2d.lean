import Verif.Model.Histogram2d
import Verif.Props.Smoothing
import Verif.Lemmas.Except
import Verif.Lemmas.Marginal

/-! # Lemmas: two-dimensional histograms entry by entry -/

namespace CC

/-- The entry in row `i` and column `j`. -/
def Spec.cell (h : List (List ℝ)) (i j : Nat) : ℝ := (h.getD i []).getD j 0

/-- An array of `m` rows and `n` columns. -/
structure Spec.Rect (m n : Nat) (h : List (List ℝ)) : Prop where
  rows : h.length = m
  cols : ∀ r ∈ h, r.length = n

open Spec

theorem Spec.Rect.row {m n : Nat} {h : List (List ℝ)} (hr : Rect m n h) {i : Nat} (hi : i < m) : (h.getD i []).length = n := by
  rw [List.getD_eq_getElem?_getD, List.getElem?_eq_getElem (by rw [hr.rows]; exact hi), Option.getD_some]
  exact hr.cols _ (List.getElem_mem _)

theorem rect_ext {m n : Nat} {h h' : List (List ℝ)} (hr : Rect m n h) (hr' : Rect m n h')
    (he : ∀ i < m, ∀ j < n, cell h i j = cell h' i j) : h = h' := by
  refine List.ext_getElem (by rw [hr.rows, hr'.rows]) fun i h1 h2 => ?_
  have hi : i < m := by rw [← hr.rows]; exact h1
  refine List.ext_getElem (by rw [hr.cols _ (List.getElem_mem _), hr'.cols _ (List.getElem_mem _)]) fun j h3 h4 => ?_
  have hj : j < n := by rw [← hr.cols _ (List.getElem_mem h1)]; exact h3
  have := he i hi j hj
  simp only [cell, List.getD_eq_getElem?_getD, List.getElem?_eq_getElem h1, List.getElem?_eq_getElem h2, Option.getD_some,
    List.getElem?_eq_getElem h3, List.getElem?_eq_getElem h4] at this
  exact this

theorem getD_map_range {α : Type} (n i : Nat) (hi : i < n) (f : Nat → α) (d : α) : ((List.range n).map f).getD i d = f i := by
  rw [List.getD_eq_getElem?_getD, List.getElem?_eq_getElem (by simpa using hi), Option.getD_some]
  simp

theorem getD_map_lt {α β : Type} (l : List α) (f : α → β) {i : Nat} (hi : i < l.length) (d : α) (e : β) :
    (l.map f).getD i e = f (l.getD i d) := by
  rw [List.getD_eq_getElem?_getD, List.getElem?_eq_getElem (by simpa using hi), Option.getD_some, List.getD_eq_getElem?_getD,
    List.getElem?_eq_getElem hi, Option.getD_some, List.getElem_map]

/-! ### Exchange of rows and columns -/

theorem transpose_rect {m n : Nat} {h : List (List ℝ)} (hr : h.length = m) : Rect n m (transpose n h) := by
  refine ⟨by simp [transpose], fun r hm => ?_⟩
  obtain ⟨j, -, rfl⟩ := List.mem_map.1 hm
  simpa using hr

theorem cell_transpose {m n : Nat} {h : List (List ℝ)} (hr : h.length = m) {i j : Nat} (hi : i < m) (hj : j < n) :
    cell (transpose n h) j i = cell h i j := by
  simp only [cell, transpose]
  rw [getD_map_range _ _ hj, getD_map_lt _ _ (by rw [hr]; exact hi) []]

/-! ### Smoothing -/

theorem filter_rect {m n : Nat} {h : List (List ℝ)} (hr : Rect m n h) (s : Nat) : Rect m n (h.map (gaussianFilter s)) := by
  refine ⟨by simpa using hr.rows, fun r hm => ?_⟩
  obtain ⟨q, hq, rfl⟩ := List.mem_map.1 hm
  simpa [gaussianFilter, reflectFilter] using hr.cols q hq

theorem cell_filter {m n : Nat} {h : List (List ℝ)} (hr : Rect m n h) (s : Nat) {i j : Nat} (hi : i < m) (hj : j < n) :
    cell (h.map (gaussianFilter s)) i j = ∑ b ∈ Finset.range (2 * (4 * s) + 1), gaussKernel s (4 * s) ((b : Int) - (4 * s : Nat)) *
      cell h i (reflectIndex n ((j : Int) + ((b : Int) - (4 * s : Nat)))) := by
  simp only [cell]
  rw [getD_map_lt _ _ (by rw [hr.rows]; exact hi) []]
  have hl := hr.row hi
  generalize h.getD i [] = r at hl
  rw [List.getD_eq_getElem?_getD, List.getElem?_eq_getElem (by simpa [gaussianFilter, reflectFilter, hl] using hj), Option.getD_some]
  simp only [gaussianFilter]
  rw [reflectFilter_getElem]
  simp only [extend, hl]

theorem smoothRows_rect {m n : Nat} {h h' : List (List ℝ)} {s : Int} (hr : Rect m n h) (hs : smoothRows s n h = .ok h') :
    Rect m n h' := by
  unfold smoothRows at hs
  split_ifs at hs with h0 h1
  · cases hs; exact hr
  · cases hs
    refine filter_rect ?_ _
    rw [hr.rows]
    exact transpose_rect (by simp [transpose])

theorem cell_smoothRows {m n : Nat} {h h' : List (List ℝ)} {s : Int} (hr : Rect m n h) (hs : smoothRows s n h = .ok h') (hpos : 0 < s)
    {i j : Nat} (hi : i < m) (hj : j < n) :
    cell h' i j = ∑ b ∈ Finset.range (2 * (4 * s.toNat) + 1), ∑ a ∈ Finset.range (2 * (4 * s.toNat) + 1),
      gaussKernel s.toNat (4 * s.toNat) ((a : Int) - (4 * s.toNat : Nat)) *
        gaussKernel s.toNat (4 * s.toNat) ((b : Int) - (4 * s.toNat : Nat)) *
      cell h (reflectIndex m ((i : Int) + ((a : Int) - (4 * s.toNat : Nat)))) (reflectIndex n ((j : Int) + ((b : Int) - (4 * s.toNat : Nat)))) := by
  unfold smoothRows at hs
  rw [if_neg hpos.ne', if_pos hpos] at hs
  cases hs
  have hm : 0 < m := by omega
  have hn : 0 < n := by omega
  have ht := transpose_rect (n := n) hr.rows
  have hf := filter_rect ht s.toNat
  rw [hr.rows, cell_filter (transpose_rect (n := m) hf.rows) _ hi hj]
  refine Finset.sum_congr rfl fun b _ => ?_
  have hj' := reflectIndex_lt hn ((j : Int) + ((b : Int) - (4 * s.toNat : Nat)))
  rw [cell_transpose hf.rows hj' hi, cell_filter ht _ hj' hi, Finset.mul_sum]
  refine Finset.sum_congr rfl fun a _ => ?_
  rw [cell_transpose hr.rows (reflectIndex_lt hm _) hj']
  ring

theorem smoothRows_exists {s : Int} (hs : 0 ≤ s) (n : Nat) (h : List (List ℝ)) : ∃ h', smoothRows s n h = .ok h' := by
  unfold smoothRows
  split_ifs with h0 h1
  · exact ⟨_, rfl⟩
  · exact ⟨_, rfl⟩
  · omega

/-- Exchanging the axes before or after smoothing is the same. -/
theorem smoothRows_transpose {m n : Nat} {h h' : List (List ℝ)} {s : Int} (hr : Rect m n h) (hm : 0 < m) (hn : 0 < n)
    (hs : smoothRows s n h = .ok h') : smoothRows s m (transpose n h) = .ok (transpose n h') := by
  have h0 : 0 ≤ s := by
    unfold smoothRows at hs
    split_ifs at hs <;> omega
  obtain ⟨g, hg⟩ := smoothRows_exists h0 m (transpose n h)
  have hr' := smoothRows_rect hr hs
  have ht := transpose_rect (n := n) hr.rows
  rw [hg]
  congr 1
  refine rect_ext (smoothRows_rect ht hg) (transpose_rect (n := n) hr'.rows) fun j hj i hi => ?_
  rw [cell_transpose hr'.rows hi hj]
  rcases h0.eq_or_lt with h1 | h1
  · unfold smoothRows at hs hg
    rw [if_pos h1.symm] at hs hg
    cases hs; cases hg
    exact cell_transpose hr.rows hi hj
  · rw [cell_smoothRows hr hs h1 hi hj, cell_smoothRows ht hg h1 hj hi, Finset.sum_comm]
    refine Finset.sum_congr rfl fun a _ => Finset.sum_congr rfl fun b _ => ?_
    rw [cell_transpose hr.rows (reflectIndex_lt hm _) (reflectIndex_lt hn _)]
    ring

/-! ### Powers -/

theorem powRows_ok_iff {h h' : List (List ℝ)} {p : ℝ} : powRows h p = .ok h' ↔
    (0 ≤ p ∨ ∀ r ∈ h, ∀ v ∈ r, v ≠ 0) ∧ h' = h.map (List.map (· ^ p)) := by
  unfold powRows
  induction h generalizing h' with
  | nil =>
    simp only [List.mapM_nil, List.not_mem_nil, false_imp_iff, implies_true, or_true, true_and, List.map_nil]
    constructor
    · intro h; cases h; rfl
    · rintro rfl; rfl
  | cons r h ih =>
    rw [List.mapM_cons, bind_ok_iff]
    simp only [bind_ok_iff, ih]
    simp only [powAll, bind_ok_iff, ensure_ok_iff]
    constructor
    · rintro ⟨r', ⟨u, h1, h2⟩, rs, ⟨h3, rfl⟩, h4⟩
      cases h2; cases h4
      refine ⟨?_, rfl⟩
      simp only [Bool.or_eq_true, decide_eq_true_eq, List.all_eq_true] at h1
      rcases h1 with h1 | h1
      · exact Or.inl h1
      rcases h3 with h3 | h3
      · exact Or.inl h3
      right
      intro q hq
      rcases List.mem_cons.1 hq with rfl | hq
      · exact h1
      · exact h3 q hq
    · rintro ⟨h1, rfl⟩
      refine ⟨r.map (· ^ p), ⟨(), ?_, rfl⟩, h.map (List.map (· ^ p)), ⟨?_, rfl⟩, rfl⟩
      · simp only [Bool.or_eq_true, decide_eq_true_eq, List.all_eq_true]
        rcases h1 with h1 | h1
        · exact Or.inl h1
        · exact Or.inr (h1 r (by simp))
      · rcases h1 with h1 | h1
        · exact Or.inl h1
        · exact Or.inr fun q hq => h1 q (by simp [hq])

theorem cell_powRows {m n : Nat} {h : List (List ℝ)} (hr : Rect m n h) (p : ℝ) {i j : Nat} (hi : i < m) (hj : j < n) :
    cell (h.map (List.map (· ^ p))) i j = cell h i j ^ p := by
  simp only [cell]
  rw [getD_map_lt _ _ (by rw [hr.rows]; exact hi) [], getD_map_lt _ _ (by rw [hr.row hi]; exact hj) 0]

theorem powRows_rect {m n : Nat} {h : List (List ℝ)} (hr : Rect m n h) (p : ℝ) : Rect m n (h.map (List.map (· ^ p))) := by
  refine ⟨by simpa using hr.rows, fun r hm => ?_⟩
  obtain ⟨q, hq, rfl⟩ := List.mem_map.1 hm
  simpa using hr.cols q hq

/-! ### The histogram -/

theorem histogram2d_ok_iff {ex ey x y w : List ℝ} {h : List (List ℝ)} : histogram2d ex ey x y w = .ok h ↔
    (List.zipWith (fun l r => decide (l ≤ r)) ex ex.tail).all id = true ∧
    (List.zipWith (fun l r => decide (l ≤ r)) ey ey.tail).all id = true ∧
    h = (List.range (ex.length - 1)).map fun i => (List.range (ey.length - 1)).map fun j => cellMass ex ey x y w i j := by
  unfold histogram2d
  rw [bind_ok_iff]
  constructor
  · rintro ⟨u, h1, h2⟩
    rw [bind_ok_iff] at h2
    obtain ⟨u', h2, h3⟩ := h2
    cases h3
    exact ⟨ensure_ok_iff.1 h1, ensure_ok_iff.1 h2, rfl⟩
  · rintro ⟨h1, h2, rfl⟩
    refine ⟨(), ensure_ok_iff.2 h1, ?_⟩
    rw [bind_ok_iff]
    exact ⟨(), ensure_ok_iff.2 h2, rfl⟩

theorem histogram2d_rect {ex ey x y w : List ℝ} {h : List (List ℝ)} (hh : histogram2d ex ey x y w = .ok h) :
    Rect (ex.length - 1) (ey.length - 1) h := by
  obtain ⟨-, -, rfl⟩ := histogram2d_ok_iff.1 hh
  refine ⟨by simp, fun r hr => ?_⟩
  obtain ⟨i, -, rfl⟩ := List.mem_map.1 hr
  simp

theorem cell_histogram2d {ex ey x y w : List ℝ} {h : List (List ℝ)} (hh : histogram2d ex ey x y w = .ok h) {i j : Nat}
    (hi : i < ex.length - 1) (hj : j < ey.length - 1) : cell h i j = cellMass ex ey x y w i j := by
  obtain ⟨-, -, rfl⟩ := histogram2d_ok_iff.1 hh
  simp only [cell]
  rw [getD_map_range _ _ hi, getD_map_range _ _ hj]

theorem cellMass_swap (ex ey x y w : List ℝ) (i j : Nat) : cellMass ey ex y x w j i = cellMass ex ey x y w i j := by
  unfold cellMass
  congr 1
  induction x generalizing y w with
  | nil => cases y <;> simp
  | cons a x ih =>
    cases y with
    | nil => simp
    | cons b y =>
      cases w with
      | nil => simp
      | cons v w =>
        simp only [List.zip_cons_cons, List.map_cons, Bool.and_comm (inBin ey j b), List.cons.injEq, true_and]
        exact ih y w

theorem histogram2d_swap {ex ey x y w : List ℝ} {h : List (List ℝ)} (hh : histogram2d ex ey x y w = .ok h) :
    histogram2d ey ex y x w = .ok (transpose (ey.length - 1) h) := by
  have hr := histogram2d_rect hh
  obtain ⟨h1, h2, -⟩ := histogram2d_ok_iff.1 hh
  have hg := (histogram2d_ok_iff (x := y) (y := x) (w := w)).2 ⟨h2, h1, rfl⟩
  rw [hg]
  congr 1
  refine rect_ext (histogram2d_rect hg) (transpose_rect hr.rows) fun j hj i hi => ?_
  rw [cell_transpose hr.rows hi hj, cell_histogram2d hh hi hj, cell_histogram2d hg hj hi, cellMass_swap]

end CC
