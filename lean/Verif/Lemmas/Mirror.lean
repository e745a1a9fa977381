import Verif.Lemmas.Marginal
import Verif.Lemmas.MaxLoop
import Verif.Props.Smoothing
import Verif.Props.GridBins

/-! # Arrays of the mirrored parameter -/

set_option linter.unusedSectionVars false

namespace CC
open Spec

section
variable {K : Type} [Field K] [LinearOrder K] [IsStrictOrderedRing K]

/-- The array of an increasing axis after a change of sign: negated and reversed. -/
def mirror (l : List K) : List K := (l.map (- ·)).reverse

@[simp] theorem mirror_length (l : List K) : (mirror l).length = l.length := by simp [mirror]

theorem mirror_getElem (l : List K) (i : Nat) (h : i < (mirror l).length) :
    (mirror l)[i] = -l[l.length - 1 - i]'(by simp at h; omega) := by
  simp [mirror, List.getElem_reverse]

theorem mirror_getD (l : List K) {i : Nat} (h : i < l.length) : (mirror l).getD i 0 = -l.getD (l.length - 1 - i) 0 := by
  rw [getD_eq (by simpa using h), getD_eq (by omega), mirror_getElem]

theorem mirror_mirror (l : List K) : mirror (mirror l) = l := by
  simp [mirror, List.map_reverse]

theorem mirror_increasing {l : List K} (h : l.Pairwise (· < ·)) : (mirror l).Pairwise (· < ·) := by
  rw [mirror, List.pairwise_reverse, List.pairwise_map]
  exact h.imp fun h => by linarith

theorem mirror_head (l : List K) : (mirror l).head? = l.getLast?.map (- ·) := by
  simp [mirror]

theorem mirror_last (l : List K) : (mirror l).getLast? = l.head?.map (- ·) := by
  simp [mirror]

theorem midpoints_getElem (e : List K) (i : Nat) (h : i < (midpoints e).length) :
    (midpoints e)[i] = 1 / 2 * (e[i + 1]'(by rw [midpoints_length] at h; omega) + e[i]'(by rw [midpoints_length] at h; omega)) := by
  simp [midpoints]

theorem midpoints_mirror (e : List K) : midpoints (mirror e) = mirror (midpoints e) := by
  apply List.ext_getElem
  · simp [midpoints_length]
  · intro i h1 h2
    rw [midpoints_length, mirror_length] at h1
    rw [mirror_getElem, midpoints_getElem, midpoints_getElem, mirror_getElem, mirror_getElem]
    simp only [midpoints_length]
    have e1 : e.length - 1 - (i + 1) = e.length - 1 - 1 - i := by omega
    have e2 : e.length - 1 - i = e.length - 1 - 1 - i + 1 := by omega
    simp only [e1, e2]
    ring

theorem linspace_mirror (a b : K) {n : Nat} (hn : 2 ≤ n) : linspace (-b) (-a) n = mirror (linspace a b n) := by
  apply List.ext_getElem
  · simp
  · intro i h1 h2
    have hi : i < n := by simpa using h1
    rw [mirror_getElem, linspace_getElem, linspace_getElem]
    have hc : ((n - 1 - i : Nat) : K) = n - 1 - i := by
      rw [Nat.cast_sub (by omega), Nat.cast_sub (by omega)]
      simp
    have hn0 : (n : K) - 1 ≠ 0 := by
      have : (1 : K) < n := by exact_mod_cast hn
      linarith
    simp only [linspace_length, hc]
    field_simp
    ring

/-! ## Curves -/

theorem curve_unique {pts : List (K × K)} (hs : pts.Pairwise fun p q => p.1 < q.1) {x y : K} (h : OnCurve pts x y) :
    polyline pts x = y := by
  induction pts with
  | nil =>
    rcases h with h | ⟨pre, p, q, post, t, h, -⟩
    · cases h
    · simp at h
  | cons p rest ih =>
    obtain ⟨hp, hr⟩ := List.pairwise_cons.1 hs
    cases rest with
    | nil =>
      rcases h with h | ⟨pre, p', q', post, t, h, -⟩
      · obtain rfl := List.mem_singleton.1 h
        rfl
      · have := congrArg List.length h
        simp at this
        omega
    | cons q rest =>
      have hpq := hp q (by simp)
      have hmem : ∀ r ∈ q :: rest, q.1 ≤ r.1 := by
        intro r hr'
        rcases List.mem_cons.1 hr' with rfl | hr'
        · exact le_rfl
        · exact ((List.pairwise_cons.1 hr).1 r hr').le
      have later : q.1 ≤ x → OnCurve (q :: rest) x y → polyline (p :: q :: rest) x = y := by
        intro hx hc
        rw [polyline, if_neg (not_lt.2 hx)]
        exact ih hr hc
      rcases h with h | ⟨pre, p', q', post, t, h, ht0, ht1, hx, hy⟩
      · rcases List.mem_cons.1 h with rfl | h
        · rw [polyline, if_pos hpq]
          simp
        · exact later (hmem _ h) (.inl h)
      · cases pre with
        | nil =>
          simp only [List.nil_append, List.cons.injEq] at h
          obtain ⟨rfl, rfl, rfl⟩ := h
          rcases ht1.lt_or_eq with ht | rfl
          · have hpos : 0 < q.1 - p.1 := by linarith
            have hlt : x < q.1 := by
              rw [hx]
              have := mul_lt_mul_of_pos_right ht hpos
              linarith
            rw [polyline, if_pos hlt, hx, hy]
            field_simp
            ring
          · have e1 : x = q.1 := by rw [hx]; ring
            have e2 : y = q.2 := by rw [hy]; ring
            exact later e1.ge (.inl (by rw [e1, e2]; simp))
        | cons r pre =>
          simp only [List.cons_append, List.cons.injEq] at h
          obtain ⟨rfl, h⟩ := h
          have hp' : p' ∈ q :: rest := by rw [h]; simp
          have hq' : p'.1 < q'.1 := by
            rw [h, List.pairwise_append] at hr
            exact (List.pairwise_cons.1 hr.2.1).1 q' (by simp)
          refine later ?_ (.inr ⟨pre, p', q', post, t, h, ht0, ht1, hx, hy⟩)
          have := hmem _ hp'
          have := mul_nonneg ht0 (sub_nonneg.2 hq'.le)
          linarith

theorem zip_increasing {xp fp : List K} (h : xp.Pairwise (· < ·)) : (xp.zip fp).Pairwise fun p q => p.1 < q.1 := by
  induction xp generalizing fp with
  | nil => exact List.Pairwise.nil
  | cons x xp ih =>
    cases fp with
    | nil => exact List.Pairwise.nil
    | cons f fp =>
      rw [List.pairwise_cons] at h
      exact List.pairwise_cons.2 ⟨fun q hq => h.1 _ (List.of_mem_zip hq).1, ih h.2⟩

theorem zip_ends {xp fp : List K} (hl : fp.length = xp.length) :
    (∀ a, xp.head? = some a → ∃ f, (xp.zip fp).head? = some (a, f)) ∧
      ∀ b, xp.getLast? = some b → ∃ g, (xp.zip fp).getLast? = some (b, g) := by
  constructor
  · intro a ha
    cases xp with
    | nil => cases ha
    | cons x xp =>
      cases fp with
      | nil => simp at hl
      | cons f fp => cases ha; exact ⟨f, rfl⟩
  · intro b hb
    rw [List.getLast?_eq_getElem?] at hb
    obtain ⟨h, rfl⟩ := List.getElem?_eq_some_iff.1 hb
    refine ⟨fp[xp.length - 1]'(by omega), ?_⟩
    rw [List.getLast?_eq_getElem?]
    have : (xp.zip fp).length - 1 = xp.length - 1 := by simp [hl]
    rw [this, List.getElem?_eq_getElem (by simp [hl]; omega)]
    simp

/-- Interpolation is the point of the curve. -/
theorem interp1d_curve {xp fp : List K} (hinc : xp.Pairwise (· < ·)) (hl : fp.length = xp.length) {x y : K} :
    interp1d xp fp x = .ok y ↔ OnCurve (xp.zip fp) x y := by
  constructor
  · intro h
    obtain ⟨a, b, ha, hb, hax, hxb, rfl⟩ := interp1d_ok_iff.1 h
    obtain ⟨f, hf⟩ := (zip_ends hl).1 a ha
    obtain ⟨g, hg⟩ := (zip_ends hl).2 b hb
    exact polyline_onCurve hf hg hax hxb
  · intro h
    have hmem : ∀ p ∈ xp.zip fp, ∀ a b, xp.head? = some a → xp.getLast? = some b → a ≤ p.1 ∧ p.1 ≤ b := by
      intro p hp a b ha hb
      have hp' := (List.of_mem_zip hp).1
      obtain ⟨i, hi, hpi⟩ := List.mem_iff_getElem.1 hp'
      rw [List.head?_eq_getElem?] at ha
      rw [List.getLast?_eq_getElem?] at hb
      obtain ⟨h0, rfl⟩ := List.getElem?_eq_some_iff.1 ha
      obtain ⟨h1, rfl⟩ := List.getElem?_eq_some_iff.1 hb
      rw [← hpi]
      have hle := fun i j (hi : i < xp.length) (hj : j < xp.length) (hij : i ≤ j) =>
        List.pairwise_iff_getElem.1 (hinc.imp le_of_lt) i j hi hj
      constructor
      · rcases Nat.eq_zero_or_pos i with rfl | h
        · exact le_rfl
        · exact (List.pairwise_iff_getElem.1 hinc 0 i h0 hi h).le
      · rcases Nat.lt_or_ge i (xp.length - 1) with h | h
        · exact (List.pairwise_iff_getElem.1 hinc i _ hi h1 h).le
        · have : i = xp.length - 1 := by omega
          subst this
          exact le_rfl
    have hne : xp ≠ [] := by
      rintro rfl
      rcases h with h | ⟨pre, p, q, post, t, h, -⟩
      · cases h
      · simp at h
    obtain ⟨a, ha⟩ : ∃ a, xp.head? = some a := ⟨_, List.head?_eq_some_head hne⟩
    obtain ⟨b, hb⟩ : ∃ b, xp.getLast? = some b := ⟨_, List.getLast?_eq_some_getLast hne⟩
    refine interp1d_ok_iff.2 ⟨a, b, ha, hb, ?_, ?_, (curve_unique (zip_increasing hinc) h).symm⟩
    · rcases h with h | ⟨pre, p, q, post, t, h, ht0, ht1, hx, hy⟩
      · exact (hmem _ h a b ha hb).1
      · have h1 := (hmem p (by rw [h]; simp) a b ha hb).1
        have h2 := (hmem q (by rw [h]; simp) a b ha hb).1
        rw [hx]
        nlinarith [mul_nonneg ht0 (sub_nonneg.2 h2), mul_nonneg (sub_nonneg.2 ht1) (sub_nonneg.2 h1)]
    · rcases h with h | ⟨pre, p, q, post, t, h, ht0, ht1, hx, hy⟩
      · exact (hmem _ h a b ha hb).2
      · have h1 := (hmem p (by rw [h]; simp) a b ha hb).2
        have h2 := (hmem q (by rw [h]; simp) a b ha hb).2
        rw [hx]
        nlinarith [mul_nonneg ht0 (sub_nonneg.2 h2), mul_nonneg (sub_nonneg.2 ht1) (sub_nonneg.2 h1)]

/-- A curve traversed backwards, each coordinate changed by an affine map. -/
theorem onCurve_reverse {pts : List (K × K)} {x y : K} (h : OnCurve pts x y) (a b c d : K) :
    OnCurve (pts.map fun p => (a * p.1 + b, c * p.2 + d)).reverse (a * x + b) (c * y + d) := by
  rcases h with h | ⟨pre, p, q, post, t, h, ht0, ht1, hx, hy⟩
  · left
    rw [List.mem_reverse]
    exact List.mem_map.2 ⟨_, h, rfl⟩
  · right
    subst h
    refine ⟨(post.map fun p => (a * p.1 + b, c * p.2 + d)).reverse, (a * q.1 + b, c * q.2 + d), (a * p.1 + b, c * p.2 + d),
      (pre.map fun p => (a * p.1 + b, c * p.2 + d)).reverse, 1 - t, by simp, by linarith, by linarith, ?_, ?_⟩
    · rw [hx]; ring
    · rw [hy]; ring

theorem zip_reverse {α β : Type} {l : List α} {m : List β} (h : l.length = m.length) : l.reverse.zip m.reverse = (l.zip m).reverse := by
  rw [List.zip_eq_zipWith, List.zip_eq_zipWith, List.reverse_zipWith h]

theorem interp1d_mirror {xp fp : List K} (hinc : xp.Pairwise (· < ·)) (hl : fp.length = xp.length) {x y : K}
    (h : interp1d xp fp x = .ok y) : interp1d (mirror xp) fp.reverse (-x) = .ok y := by
  rw [interp1d_curve (mirror_increasing hinc) (by simp [hl])]
  have := onCurve_reverse ((interp1d_curve hinc hl).1 h) (-1) 0 1 0
  simp only [neg_mul, one_mul, add_zero] at this
  convert this using 1
  rw [mirror, zip_reverse (by simp [hl]), List.zip_map_left]
  rfl

theorem mapM_interp1d_mirror {xp fp xs ys : List K} (hinc : xp.Pairwise (· < ·)) (hl : fp.length = xp.length)
    (h : xs.mapM (interp1d xp fp) = .ok ys) : (mirror xs).mapM (interp1d (mirror xp) fp.reverse) = .ok ys.reverse := by
  rw [mapM_ok_iff] at h ⊢
  rw [show mirror xs = (xs.map (- ·)).reverse from rfl, List.forall₂_reverse_iff, List.forall₂_map_left_iff]
  exact h.imp fun _ _ h => interp1d_mirror hinc hl h

/-! ## Histograms -/

theorem inBin_mirror {e : List K} {i : Nat} (hi : i + 1 < e.length) {x : K} (hx : x ∉ e) :
    inBin (mirror e) i (-x) = inBin e (e.length - 2 - i) x := by
  have h1 : ∀ k, k < e.length → x ≠ e.getD k 0 := by
    intro k hk h
    rw [getD_eq hk] at h
    exact hx (h ▸ List.getElem_mem _)
  have a1 := h1 (e.length - 1 - i) (by omega)
  have a2 := h1 (e.length - 2 - i) (by omega)
  have e1 : e.length - 1 - (i + 1) = e.length - 2 - i := by omega
  have e2 : e.length - 2 - i + 1 = e.length - 1 - i := by omega
  simp only [inBin, mirror_getD e (show i < e.length by omega), mirror_getD e hi, e1, e2, mirror_length]
  rw [Bool.eq_iff_iff]
  simp only [Bool.and_eq_true, Bool.or_eq_true, decide_eq_true_eq, neg_le_neg_iff, neg_lt_neg_iff]
  constructor
  · rintro ⟨h2, h3⟩
    have h4 : e.getD (e.length - 2 - i) 0 ≤ x := by
      rcases h3 with h3 | h3
      · exact h3.le
      · exact h3.2
    exact ⟨h4, .inl (lt_of_le_of_ne h2 a1)⟩
  · rintro ⟨h2, h3⟩
    have h4 : x ≤ e.getD (e.length - 1 - i) 0 := by
      rcases h3 with h3 | h3
      · exact h3.le
      · exact h3.2
    exact ⟨h4, .inl (lt_of_le_of_ne h2 a2.symm)⟩

theorem binMass_mirror {e data w : List K} {i : Nat} (hi : i + 1 < e.length) (hd : ∀ x ∈ data, x ∉ e) :
    binMass (mirror e) (data.map (- ·)) w i = binMass e data w (e.length - 2 - i) := by
  simp only [binMass, List.zipWith_map_left]
  congr 1
  induction data generalizing w with
  | nil => rfl
  | cons x xs ih =>
    cases w with
    | nil => rfl
    | cons v vs =>
      simp only [List.zipWith_cons_cons]
      rw [inBin_mirror hi (hd x (by simp)), ih fun y hy => hd y (by simp [hy])]

theorem all_zip_mirror (r : K → K → Bool) (hr : ∀ a b, r (-b) (-a) = r a b) (e : List K) :
    ((List.zipWith r (mirror e) (mirror e).tail).all id) = (List.zipWith r e e.tail).all id := by
  have key : List.zipWith r (mirror e) (mirror e).tail = (List.zipWith r e e.tail).reverse := by
    apply List.ext_getElem
    · simp
    · intro i h1 h2
      simp only [List.length_zipWith, mirror_length, List.length_tail] at h1
      rw [List.getElem_reverse]
      simp only [List.getElem_zipWith, List.getElem_tail, mirror_getElem, hr, List.length_zipWith, List.length_tail]
      have e1 : e.length - 1 - (i + 1) = min e.length (e.length - 1) - 1 - i := by omega
      have e2 : e.length - 1 - i = min e.length (e.length - 1) - 1 - i + 1 := by omega
      simp only [e1, e2]
  rw [key, List.all_reverse]

theorem histDensity_mirror {e data w h : List K} (hd : ∀ x ∈ data, x ∉ e) (hok : histDensity e data w = .ok h) :
    histDensity (mirror e) (data.map (- ·)) w = .ok h.reverse := by
  simp only [histDensity, bind_ok_iff, ensure_ok_iff, pure_ok_iff] at hok ⊢
  obtain ⟨n, hn, _, h1, _, h2, rfl⟩ := hok
  obtain ⟨h3, rfl⟩ := histogram_ok_iff.1 hn
  have hmass : (List.range ((mirror e).length - 1)).map (binMass (mirror e) (data.map (- ·)) w) =
      ((List.range (e.length - 1)).map (binMass e data w)).reverse := by
    apply List.ext_getElem
    · simp
    · intro i g1 g2
      simp only [List.length_map, List.length_range, mirror_length] at g1
      rw [List.getElem_reverse]
      simp only [List.getElem_map, List.getElem_range, List.length_map, List.length_range]
      rw [binMass_mirror (by omega) hd]
      congr 1
  refine ⟨((List.range (e.length - 1)).map (binMass e data w)).reverse, histogram_ok_iff.2 ⟨?_, hmass.symm⟩, (), ?_, (), ?_, ?_⟩
  · rw [all_zip_mirror _ (by intro a b; simp)]
    exact h3
  · rw [all_zip_mirror _ (by intro a b; simp [eq_comm])]
    exact h1
  · rw [List.sum_reverse]
    exact h2
  · have hw : List.zipWith (fun l r => r - l) (mirror e) (mirror e).tail = (List.zipWith (fun l r => r - l) e e.tail).reverse := by
      apply List.ext_getElem
      · simp
      · intro i g1 g2
        simp only [List.length_zipWith, mirror_length, List.length_tail] at g1
        rw [List.getElem_reverse]
        simp only [List.getElem_zipWith, List.getElem_tail, mirror_getElem, List.length_zipWith, List.length_tail]
        have e1 : e.length - 1 - (i + 1) = min e.length (e.length - 1) - 1 - i := by omega
        have e2 : e.length - 1 - i = min e.length (e.length - 1) - 1 - i + 1 := by omega
        simp only [e1, e2]
        ring
    rw [hw, List.sum_reverse]
    exact (List.reverse_zipWith (by simp)).symm

/-! ## Cumulative sums -/

theorem cumsum_reverse {ys : List K} (hne : ys ≠ []) :
    cumsum ys.reverse = ((0 :: (cumsum ys).dropLast).map (ys.sum - ·)).reverse := by
  have hn : 0 < ys.length := List.length_pos_iff.2 hne
  apply List.ext_getElem
  · simp
    omega
  · intro i h1 h2
    have hi : i < ys.length := by simpa using h1
    rw [cumsum_getElem, List.getElem_reverse, List.getElem_map]
    have hsum : (ys.reverse.take (i + 1)).sum = ys.sum - (ys.take (ys.length - 1 - i)).sum := by
      have h3 := congrArg List.sum (List.take_append_drop (ys.length - 1 - i) ys)
      rw [List.sum_append] at h3
      have h4 : ys.reverse.take (i + 1) = (ys.drop (ys.length - 1 - i)).reverse := by
        rw [List.take_reverse]
        congr 2
        omega
      rw [h4, List.sum_reverse]
      linarith
    rw [hsum]
    congr 1
    simp only [List.length_map, List.length_cons, List.length_dropLast, cumsum_length]
    have e : ys.length - 1 + 1 - 1 - i = ys.length - 1 - i := by omega
    simp only [e]
    rcases Nat.eq_zero_or_pos (ys.length - 1 - i) with h0 | h0
    · simp [h0]
    · obtain ⟨k, hk⟩ : ∃ k, ys.length - 1 - i = k + 1 := ⟨_, (Nat.succ_pred_eq_of_pos h0).symm⟩
      simp only [hk, List.getElem_cons_succ, List.getElem_dropLast, cumsum_getElem]

theorem cumsum_strict {ys : List K} (h : ∀ y ∈ ys, 0 < y) : (cumsum ys).Pairwise (· < ·) := by
  rw [List.pairwise_iff_getElem]
  intro i j hi hj hij
  rw [cumsum_length] at hi hj
  rw [cumsum_getElem, cumsum_getElem]
  have h1 : (ys.take (i + 2)).sum ≤ (ys.take (j + 1)).sum := sum_take_mono (fun y hy => (h y hy).le) (by omega)
  have h2 : (ys.take (i + 2)).sum = (ys.take (i + 1)).sum + ys[i + 1] := by
    rw [List.take_add_one, List.sum_append, List.getElem?_eq_getElem (by omega)]
    simp
  have h3 := h ys[i + 1] (List.getElem_mem _)
  linarith

theorem onCurve_append {pts rest : List (K × K)} {x y : K} (h : OnCurve pts x y) : OnCurve (pts ++ rest) x y := by
  rcases h with h | ⟨pre, p, q, post, t, h, ht⟩
  · exact .inl (List.mem_append_left _ h)
  · exact .inr ⟨pre, p, q, post ++ rest, t, by rw [h]; simp, ht⟩

/-- Quantiles of the mirrored density: those of the density, mirrored, and one step of the grid further down. -/
theorem quantile_mirror {ys xs : List K} {d : K} (hpos : ∀ y ∈ ys, 0 < y) (hl : xs.length = ys.length) (h2 : 2 ≤ ys.length)
    (hstep : ∀ i (h : i + 1 < xs.length), xs[i + 1] = xs[i] + d) {q y y' : K}
    (h : interp1d ((cumsum ys).map (· / ys.sum)) xs q = .ok y)
    (h' : interp1d ((cumsum ys.reverse).map (· / ys.sum)) (mirror xs) (1 - q) = .ok y') : y' = -(y + d) := by
  have hne : ys ≠ [] := by rintro rfl; simp at h2
  have hxne : xs ≠ [] := List.length_pos_iff.1 (by omega)
  have hS : 0 < ys.sum := by
    obtain ⟨a, l, rfl⟩ := List.exists_cons_of_ne_nil hne
    rw [List.sum_cons]
    have := hpos a (by simp)
    have : 0 ≤ l.sum := List.sum_nonneg fun v hv => (hpos v (by simp [hv])).le
    linarith
  set C := (cumsum ys).map (· / ys.sum) with hC
  have hCl : C.length = ys.length := by simp [hC]
  have hCne0 : C ≠ [] := List.length_pos_iff.1 (by omega)
  have hinc : C.Pairwise (· < ·) := by
    rw [hC, List.pairwise_map]
    exact (cumsum_strict hpos).imp fun h => div_lt_div_of_pos_right h hS
  have hC' : (cumsum ys.reverse).map (· / ys.sum) = ((0 :: C.dropLast).map (1 - ·)).reverse := by
    rw [cumsum_reverse hne, List.map_reverse, hC, ← List.map_dropLast, List.map_map]
    congr 1
    simp only [List.map_cons, List.map_map, Function.comp_apply, sub_zero, div_self hS.ne', List.cons.injEq, true_and]
    refine List.map_congr_left fun v _ => ?_
    simp only [Function.comp_apply]
    field_simp
  have hC'inc : ((cumsum ys.reverse).map (· / ys.sum)).Pairwise (· < ·) := by
    rw [List.pairwise_map]
    exact (cumsum_strict fun y hy => hpos y (List.mem_reverse.1 hy)).imp fun h => div_lt_div_of_pos_right h hS
  have hCne : C.dropLast ≠ [] := by
    intro h0
    have := congrArg List.length h0
    simp [hCl] at this
    omega
  -- the curve without its last point
  have hsplit : C.zip xs = C.dropLast.zip xs.dropLast ++ [(C.getLast hCne0,
      xs.getLast hxne)] := by
    conv_lhs => rw [← List.dropLast_append_getLast (l := C) hCne0,
      ← List.dropLast_append_getLast (l := xs) hxne]
    rw [List.zip_append (by simp [hCl, hl])]
    rfl
  have hdinc : C.dropLast.Pairwise (· < ·) := hinc.sublist (List.dropLast_sublist _)
  have hdl : xs.dropLast.length = C.dropLast.length := by simp [hCl, hl]
  have hcurve := (interp1d_curve hinc (by rw [hl, hCl])).1 h
  have hL : OnCurve (C.dropLast.zip xs.dropLast) q y := by
    obtain ⟨a, b, ha, hb, hax, -⟩ := interp1d_ok_iff.1 h
    obtain ⟨a', b', ha', hb', hax', -⟩ := interp1d_ok_iff.1 h'
    rw [hC'] at ha'
    have hlast : C.dropLast.getLast? = some (1 - a') := by
      rw [List.head?_reverse, List.getLast?_map, List.getLast?_cons] at ha'
      rw [List.getLast?_eq_some_getLast hCne] at ha' ⊢
      simp only [Option.getD_some, Option.map_some, Option.some.injEq] at ha' ⊢
      linarith
    have hhead : C.dropLast.head? = some a := by
      match C, hCl, ha, hCne with
      | [], hCl, _, _ => simp at hCl; omega
      | [c], hCl, _, _ => simp at hCl; omega
      | c :: c' :: r, _, ha, _ => cases ha; rfl
    have hz := (interp1d_ok_iff (fp := xs.dropLast)).2 ⟨a, 1 - a', hhead, hlast, hax, by linarith, rfl⟩
    have hz' := (interp1d_curve hdinc hdl).1 hz
    have := curve_unique (zip_increasing hinc) (by rw [hsplit]; exact onCurve_append (rest := [_]) hz')
    rw [curve_unique (zip_increasing hinc) hcurve] at this
    rw [this]
    exact hz'
  have hR := onCurve_append (rest := [((1 : K), -xs.head hxne)]) (onCurve_reverse hL (-1) 1 (-1) (-d))
  have hz : (C.dropLast.zip xs.dropLast).map (fun p => (-1 * p.1 + 1, -1 * p.2 + -d)) =
      (C.dropLast.map (1 - ·)).zip (xs.tail.map (- ·)) := by
    apply List.ext_getElem
    · simp [hCl, hl]
    · intro i g1 g2
      simp only [List.length_zip, List.length_map, List.length_dropLast, List.length_tail] at g2
      simp only [List.getElem_map, List.getElem_zip, List.getElem_dropLast, List.getElem_tail, Prod.mk.injEq]
      rw [hstep i (by omega)]
      constructor <;> ring
  have hfin : ((C.dropLast.zip xs.dropLast).map (fun p => (-1 * p.1 + 1, -1 * p.2 + -d))).reverse ++
      [((1 : K), -xs.head hxne)] = ((cumsum ys.reverse).map (· / ys.sum)).zip (mirror xs) := by
    rw [hC', mirror, zip_reverse (by simp [hCl, hl]; omega), hz]
    cases xs with
    | nil => simp at hl; omega
    | cons x0 xr => simp
  rw [hfin] at hR
  have hy := (interp1d_curve hC'inc (by simp [hl])).2 hR
  rw [show -1 * q + 1 = 1 - q by ring, h'] at hy
  cases hy
  ring

/-! ## Smoothing -/

theorem reflectIndex_mirror {n : Nat} (hn : 0 < n) (i : Int) :
    reflectIndex n ((n : Int) - 1 - i) = n - 1 - reflectIndex n i := by
  have h1 : 0 ≤ i % (2 * n) := Int.emod_nonneg _ (by omega)
  have h2 : i % (2 * n) < 2 * n := Int.emod_lt_of_pos _ (by omega)
  have hi := Int.mul_ediv_add_emod i (2 * n)
  have h3 : ((n : Int) - 1 - i) % (2 * n) = if i % (2 * n) < n then (n : Int) - 1 - i % (2 * n) else 3 * n - 1 - i % (2 * n) := by
    split
    · have : ((n : Int) - 1 - i) = (n - 1 - i % (2 * n)) + (2 * n) * (-(i / (2 * n))) := by linarith
      rw [this, Int.add_mul_emod_self_left]
      exact Int.emod_eq_of_lt (by omega) (by omega)
    · have : ((n : Int) - 1 - i) = (3 * n - 1 - i % (2 * n)) + (2 * n) * (-(i / (2 * n)) - 1) := by linarith
      rw [this, Int.add_mul_emod_self_left]
      exact Int.emod_eq_of_lt (by omega) (by omega)
  unfold reflectIndex
  simp only [h3]
  split <;> split <;> split <;> omega

theorem extend_reverse (h : List K) (hn : 0 < h.length) (i : Int) : extend h.reverse i = extend h ((h.length : Int) - 1 - i) := by
  have hlt := reflectIndex_lt hn i
  simp only [extend, List.length_reverse]
  rw [reflectIndex_mirror hn, getD_eq (by simpa using hlt), getD_eq (by omega), List.getElem_reverse]

theorem reflectFilter_reverse (radius : Nat) (w : Int → K) (hw : ∀ k, w (-k) = w k) (h : List K) :
    reflectFilter radius w h.reverse = (reflectFilter radius w h).reverse := by
  apply List.ext_getElem
  · simp [reflectFilter]
  · intro i h1 h2
    have hi : i < h.length := by simpa [reflectFilter] using h1
    rw [List.getElem_reverse, reflectFilter_getElem, reflectFilter_getElem, ← Finset.sum_range_reflect]
    refine Finset.sum_congr rfl fun j hj => ?_
    have hj' : j < 2 * radius + 1 := Finset.mem_range.1 hj
    have e : ((2 * radius + 1 - 1 - j : Nat) : Int) - radius = -((j : Int) - radius) := by omega
    rw [e, hw, extend_reverse h (by omega)]
    congr 2
    simp only [reflectFilter, List.length_map, List.length_range]
    omega

end

theorem gaussKernel_even (sigma radius : Nat) (k : Int) : gaussKernel sigma radius (-k) = gaussKernel sigma radius k := by
  simp [gaussKernel]

theorem smoothHist_reverse {s : Int} {h g : List ℝ} (hok : smoothHist s h = .ok g) : smoothHist s h.reverse = .ok g.reverse := by
  unfold smoothHist at hok ⊢
  split
  · rw [if_pos (by assumption)] at hok
    cases hok
    rfl
  · rw [if_neg (by assumption)] at hok
    split
    · rw [if_pos (by assumption)] at hok
      cases hok
      rw [gaussianFilter, reflectFilter_reverse _ _ (gaussKernel_even _ _)]
      rfl
    · rw [if_neg (by assumption)] at hok
      cases hok

theorem powAll_reverse {h g : List ℝ} {p : ℝ} (hok : powAll h p = .ok g) : powAll h.reverse p = .ok g.reverse := by
  simp only [powAll, bind_ok_iff, ensure_ok_iff, pure_ok_iff, List.all_reverse] at hok ⊢
  obtain ⟨_, h1, rfl⟩ := hok
  exact ⟨(), h1, by rw [List.map_reverse]⟩

end CC
