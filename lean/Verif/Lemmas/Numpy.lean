import Verif.Model.Numpy
import Verif.Lemmas.Except
import Verif.Lemmas.Comparison
import Mathlib.Tactic.Linarith
import Mathlib.Tactic.Positivity
import Mathlib.Tactic.FieldSimp
import Mathlib.Algebra.Order.BigOperators.Group.List

/-! Facts about the array functions. -/

set_option linter.unusedSectionVars false

namespace CC
variable {K : Type} [Field K] [LinearOrder K] [IsStrictOrderedRing K]

/-! ### linspace -/

@[simp] theorem linspace_length (a b : K) (n : Nat) : (linspace a b n).length = n := by
  simp [linspace]

theorem linspace_getElem (a b : K) (n i : Nat) (h : i < (linspace a b n).length) :
    (linspace a b n)[i] = a + i * ((b - a) / ((n : K) - 1)) := by
  simp [linspace]

theorem linspace_increasing {a b : K} (hab : a < b) {n : Nat} (hn : 2 ≤ n) :
    (linspace a b n).Pairwise (· < ·) := by
  have hn' : (0 : K) < (n : K) - 1 := by
    have : (2 : K) ≤ n := by exact_mod_cast hn
    linarith
  have hs : 0 < (b - a) / ((n : K) - 1) := div_pos (by linarith) hn'
  rw [linspace, List.pairwise_map]
  refine List.pairwise_lt_range.imp fun {i j} hij => ?_
  have : (i : K) < j := by exact_mod_cast hij
  have := mul_lt_mul_of_pos_right this hs
  linarith

theorem linspace_head {a b : K} {n : Nat} (hn : 1 ≤ n) : (linspace a b n).head? = some a := by
  obtain ⟨k, rfl⟩ : ∃ k, n = k + 1 := ⟨n - 1, by omega⟩
  simp [linspace, List.range_succ_eq_map]

theorem linspace_last {a b : K} {n : Nat} (hn : 2 ≤ n) : (linspace a b n).getLast? = some b := by
  have hn' : (n : K) - 1 ≠ 0 := by
    have : (2 : K) ≤ n := by exact_mod_cast hn
    intro h
    linarith
  rw [List.getLast?_eq_getElem?, List.getElem?_eq_getElem (by simp; omega)]
  rw [linspace_getElem]
  congr 1
  rw [linspace_length, Nat.cast_sub (by omega)]
  field_simp
  push_cast
  ring

theorem linspace_mem {a b : K} (hab : a ≤ b) {n : Nat} (hn : 2 ≤ n) {x : K}
    (hx : x ∈ linspace a b n) : a ≤ x ∧ x ≤ b := by
  have hn' : (0 : K) < (n : K) - 1 := by
    have : (2 : K) ≤ n := by exact_mod_cast hn
    linarith
  simp only [linspace, List.mem_map, List.mem_range] at hx
  obtain ⟨i, hi, rfl⟩ := hx
  have hi' : (i : K) ≤ n - 1 := by
    have : (i : K) + 1 ≤ n := by exact_mod_cast hi
    linarith
  have hs : 0 ≤ (b - a) / ((n : K) - 1) := div_nonneg (by linarith) hn'.le
  refine ⟨by have := mul_nonneg (Nat.cast_nonneg (α := K) i) hs; linarith, ?_⟩
  have : (i : K) * ((b - a) / ((n : K) - 1)) ≤ (n - 1) * ((b - a) / ((n : K) - 1)) :=
    mul_le_mul_of_nonneg_right hi' hs
  have h2 : ((n : K) - 1) * ((b - a) / ((n : K) - 1)) = b - a := by field_simp
  linarith

/-! ### polyline -/

/-- The points are in increasing order of abscissa (ties allowed). -/
def Sorted1 (pts : List (K × K)) : Prop := pts.Pairwise fun p q => p.1 ≤ q.1

theorem sorted1_zip {xp fp : List K} (h : xp.Pairwise (· ≤ ·)) : Sorted1 (xp.zip fp) := by
  induction xp generalizing fp with
  | nil => exact List.Pairwise.nil
  | cons x xp ih =>
    cases fp with
    | nil => exact List.Pairwise.nil
    | cons f fp =>
      rw [List.pairwise_cons] at h
      refine List.pairwise_cons.2 ⟨fun q hq => h.1 _ (List.of_mem_zip hq).1, ih h.2⟩

/-- Bounds on the values carry over to the polyline. -/
theorem polyline_bounds {pts : List (K × K)} (hs : Sorted1 pts) {lo hi : K}
    (hb : ∀ p ∈ pts, lo ≤ p.2 ∧ p.2 ≤ hi) {x : K} {p : K × K} (hp : pts.head? = some p)
    (hx : p.1 ≤ x) : lo ≤ polyline pts x ∧ polyline pts x ≤ hi := by
  induction pts generalizing p with
  | nil => cases hp
  | cons a pts ih =>
    obtain rfl : a = p := by simpa using hp
    rename' a => p
    clear hp
    cases pts with
    | nil => exact hb _ (by simp)
    | cons q rest =>
      rw [polyline]
      have ha := hb p (by simp)
      have hq := hb q (by simp)
      split
      · rename_i hlt
        have hpos : 0 < q.1 - p.1 := by linarith
        have h1 : (q.2 - p.2) / (q.1 - p.1) * (x - p.1) = (q.2 - p.2) * ((x - p.1) / (q.1 - p.1)) := by
          ring
        have ht0 : 0 ≤ (x - p.1) / (q.1 - p.1) := div_nonneg (by linarith) hpos.le
        have ht1 : (x - p.1) / (q.1 - p.1) ≤ 1 := (div_le_one hpos).2 (by linarith)
        rw [h1]
        generalize (x - p.1) / (q.1 - p.1) = t at ht0 ht1
        constructor
        · nlinarith [mul_nonneg ht0 (sub_nonneg.2 hq.1), mul_nonneg (sub_nonneg.2 ht1) (sub_nonneg.2 ha.1)]
        · nlinarith [mul_nonneg ht0 (sub_nonneg.2 hq.2), mul_nonneg (sub_nonneg.2 ht1) (sub_nonneg.2 ha.2)]
      · rename_i hnl
        exact ih (List.pairwise_cons.1 hs).2 (fun p hp => hb p (List.mem_cons_of_mem _ hp)) rfl
          (not_lt.1 hnl)

/-- The polyline is at least `lo` if all its vertices are. -/
theorem polyline_ge {pts : List (K × K)} (hs : Sorted1 pts) {lo : K} (hb : ∀ p ∈ pts, lo ≤ p.2)
    {x : K} {p : K × K} (hp : pts.head? = some p) (hx : p.1 ≤ x) : lo ≤ polyline pts x := by
  have hbd : ∃ hi, ∀ p ∈ pts, p.2 ≤ hi := by
    clear hp hb hs
    induction pts with
    | nil => exact ⟨0, by simp⟩
    | cons a l ih =>
      obtain ⟨hi, h⟩ := ih
      refine ⟨max a.2 hi, fun p hp => ?_⟩
      rcases List.mem_cons.1 hp with rfl | hp
      · exact le_max_left _ _
      · exact (h p hp).trans (le_max_right _ _)
  obtain ⟨hi, hhi⟩ := hbd
  exact (polyline_bounds hs (fun p hp => ⟨hb p hp, hhi p hp⟩) hp hx).1

/-- With nondecreasing values the polyline is monotone. -/
theorem polyline_mono {pts : List (K × K)} (hs : Sorted1 pts)
    (hv : pts.Pairwise fun p q => p.2 ≤ q.2) {x y : K} {p : K × K} (hp : pts.head? = some p)
    (hx : p.1 ≤ x) (hxy : x ≤ y) : polyline pts x ≤ polyline pts y := by
  induction pts generalizing p with
  | nil => cases hp
  | cons a pts ih =>
    obtain rfl : a = p := by simpa using hp
    rename' a => p
    clear hp
    cases pts with
    | nil => simp [polyline]
    | cons q rest =>
      obtain ⟨hv1, hv2⟩ := List.pairwise_cons.1 hv
      obtain ⟨hs1, hs2⟩ := List.pairwise_cons.1 hs
      have hpq := hv1 q (by simp)
      rw [polyline, polyline]
      by_cases h1 : x < q.1
      · rw [if_pos h1]
        have hpos : 0 < q.1 - p.1 := by linarith
        have hsl : 0 ≤ (q.2 - p.2) / (q.1 - p.1) := div_nonneg (by linarith) hpos.le
        by_cases h2 : y < q.1
        · rw [if_pos h2]
          have := mul_le_mul_of_nonneg_left (sub_le_sub_right hxy p.1) hsl
          linarith
        · rw [if_neg h2]
          have h3 : q.2 ≤ polyline (q :: rest) y :=
            polyline_ge hs2 (fun r hr => by
              rcases List.mem_cons.1 hr with rfl | hr
              · exact le_rfl
              · exact (List.pairwise_cons.1 hv2).1 r hr) rfl (not_lt.1 h2)
          have h4 : (q.2 - p.2) / (q.1 - p.1) * (x - p.1) ≤ q.2 - p.2 := by
            have h5 : (q.2 - p.2) / (q.1 - p.1) * (q.1 - p.1) = q.2 - p.2 := by
              field_simp
            calc _ ≤ (q.2 - p.2) / (q.1 - p.1) * (q.1 - p.1) :=
                  mul_le_mul_of_nonneg_left (by linarith) hsl
              _ = _ := h5
          linarith
      · rw [if_neg h1, if_neg (by intro h; exact h1 (lt_of_le_of_lt hxy h))]
        exact ih hs2 hv2 rfl (not_lt.1 h1)

/-- A point of the graph: a vertex or a point between two consecutive vertices. -/
def Spec.OnCurve (pts : List (K × K)) (x y : K) : Prop :=
  (x, y) ∈ pts ∨ ∃ pre p q post t, pts = pre ++ p :: q :: post ∧ 0 ≤ t ∧ t ≤ 1 ∧
    x = p.1 + t * (q.1 - p.1) ∧ y = p.2 + t * (q.2 - p.2)

theorem polyline_onCurve {pts : List (K × K)} {x : K} {p l : K × K}
    (hp : pts.head? = some p) (hl : pts.getLast? = some l) (hx : p.1 ≤ x) (hxl : x ≤ l.1) :
    Spec.OnCurve pts x (polyline pts x) := by
  induction pts generalizing p with
  | nil => cases hp
  | cons a pts ih =>
    obtain rfl : a = p := by simpa using hp
    rename' a => p
    clear hp
    cases pts with
    | nil =>
      cases hl
      left
      have : x = p.1 := le_antisymm hxl hx
      rw [this]
      simp [polyline]
    | cons q rest =>
      rw [polyline]
      split
      · rename_i hlt
        have hpos : 0 < q.1 - p.1 := by linarith
        right
        refine ⟨[], p, q, rest, (x - p.1) / (q.1 - p.1), rfl, div_nonneg (by linarith) hpos.le,
          (div_le_one hpos).2 (by linarith), by field_simp; ring, by ring⟩
      · rename_i hnl
        rcases ih rfl (by simpa using hl) (not_lt.1 hnl) with h | ⟨pre, p', q', post, t, h, ht⟩
        · exact Or.inl (List.mem_cons_of_mem _ h)
        · exact Or.inr ⟨p :: pre, p', q', post, t, by rw [h]; rfl, ht⟩

/-- Swapping the coordinates of a curve. -/
theorem onCurve_swap {xs ys : List K} {x y : K} (h : Spec.OnCurve (xs.zip ys) x y) :
    Spec.OnCurve (ys.zip xs) y x := by
  have hz : ys.zip xs = (xs.zip ys).map Prod.swap := by rw [List.zip_swap]
  rw [hz]
  rcases h with h | ⟨pre, p, q, post, t, h, h0, h1, hx, hy⟩
  · exact Or.inl (List.mem_map.2 ⟨_, h, rfl⟩)
  · right
    refine ⟨pre.map Prod.swap, p.swap, q.swap, post.map Prod.swap, t, ?_, h0, h1, hy, hx⟩
    rw [h]
    simp

theorem interp1d_ok_iff {xp fp : List K} {x y : K} :
    interp1d xp fp x = .ok y ↔ ∃ a b, xp.head? = some a ∧ xp.getLast? = some b ∧ a ≤ x ∧ x ≤ b ∧
      y = polyline (xp.zip fp) x := by
  unfold interp1d
  cases h1 : xp.head? with
  | none => simp
  | some a =>
    cases h2 : xp.getLast? with
    | none => simp
    | some b =>
      simp only [Option.some.injEq]
      constructor
      · intro h
        split at h
        · cases h
        · split at h
          · cases h
          · rename_i h3 h4
            cases h
            exact ⟨a, b, rfl, rfl, not_lt.1 h3, not_lt.1 h4, rfl⟩
      · rintro ⟨a', b', rfl, rfl, h3, h4, rfl⟩
        rw [if_neg (not_lt.2 h3), if_neg (not_lt.2 h4)]

/-! ### cumsum -/

@[simp] theorem cumsum_length (l : List K) : (cumsum l).length = l.length := by simp [cumsum]

theorem cumsum_getElem (l : List K) (i : Nat) (h : i < (cumsum l).length) :
    (cumsum l)[i] = (l.take (i + 1)).sum := by simp [cumsum]

theorem sum_take_mono {l : List K} (h : ∀ y ∈ l, 0 ≤ y) {i j : Nat} (hij : i ≤ j) :
    (l.take i).sum ≤ (l.take j).sum := by
  obtain ⟨k, rfl⟩ : ∃ k, j = i + k := ⟨j - i, by omega⟩
  rw [List.take_add, List.sum_append]
  have : 0 ≤ ((l.drop i).take k).sum :=
    List.sum_nonneg fun y hy => h y (List.mem_of_mem_drop (List.mem_of_mem_take hy))
  linarith

theorem cumsum_mono {l : List K} (h : ∀ y ∈ l, 0 ≤ y) : (cumsum l).Pairwise (· ≤ ·) := by
  rw [cumsum, List.pairwise_map]
  exact List.pairwise_lt_range.imp fun {i j} hij => sum_take_mono h (by omega)

theorem cumsum_last {l : List K} (h : l ≠ []) : (cumsum l).getLast? = some l.sum := by
  have hl : 0 < l.length := List.length_pos_iff.2 h
  rw [List.getLast?_eq_getElem?, List.getElem?_eq_getElem (by simp; omega), cumsum_getElem]
  rw [List.take_of_length_le (by simp; omega)]

/-- The largest entry of the cumulative sum of nonnegative values is the total. -/
theorem npMax_cumsum {l : List K} (hnn : ∀ y ∈ l, 0 ≤ y) (h : l ≠ []) :
    npMax (cumsum l) = .ok l.sum := by
  have hne : cumsum l ≠ [] := by
    intro hc
    have := congrArg List.length hc
    simp at this
    exact h this
  obtain ⟨m, hr, hm⟩ := npMax_spec hne
  rw [hr]
  congr 1
  apply le_antisymm
  · obtain ⟨i, hi, he⟩ := List.mem_iff_getElem.1 hm.1
    rw [← he, cumsum_getElem]
    calc _ ≤ (l.take l.length).sum := sum_take_mono hnn (by simp at hi; omega)
      _ = _ := by rw [List.take_length]
  · exact hm.2 _ (List.mem_of_getLast? (cumsum_last h))

end CC
