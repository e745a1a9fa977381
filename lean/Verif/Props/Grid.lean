import Verif.Model.Grid
import Verif.Lemmas.Except
import Mathlib.Tactic.Linarith
import Mathlib.Tactic.FieldSimp
import Mathlib.Algebra.Order.Field.Basic
import Mathlib.Tactic.Ring
import Mathlib.Algebra.BigOperators.Group.List.Basic
import Mathlib.Tactic.Positivity
import Mathlib.Algebra.Order.BigOperators.Group.List

/-! # C98: the grid of panels -/

namespace CC

namespace Spec

variable {K : Type} [Field K] [LinearOrder K]

/-- The intervals begin at `a`, end at `b`, have positive length, and each starts `gap` after the one before. -/
structure Tiles (a b gap : K) (xs : List (K × K)) : Prop where
  first : ∃ p, xs.head? = some p ∧ p.1 = a
  last : ∃ p, xs.getLast? = some p ∧ p.2 = b
  pos : ∀ p ∈ xs, p.1 < p.2
  next : ∀ (k : Nat) (p q : K × K), xs[k]? = some p → xs[k + 1]? = some q → q.1 = p.2 + gap

/-- Two rectangles, given by their horizontal and vertical intervals, have no inner point in common. -/
def Apart (x y x' y' : K × K) : Prop :=
  ¬ ∃ a b, (x.1 < a ∧ a < x.2 ∧ y.1 < b ∧ b < y.2) ∧ (x'.1 < a ∧ a < x'.2 ∧ y'.1 < b ∧ b < y'.2)

/-- The lengths of intervals. -/
def Lengths (xs : List (K × K)) (ls : List K) : Prop := xs.map (fun p => p.2 - p.1) = ls

end Spec

open Spec

section
variable {K : Type} [Field K] [LinearOrder K] [IsStrictOrderedRing K]

omit [LinearOrder K] [IsStrictOrderedRing K] in
theorem spans_length (sep x : K) (ls : List K) : (spans sep x ls).length = ls.length := by
  induction ls generalizing x with
  | nil => rfl
  | cons l ls ih => simp [spans, ih]

omit [LinearOrder K] [IsStrictOrderedRing K] in
theorem spans_lengths (sep x : K) (ls : List K) : (spans sep x ls).map (fun p => p.2 - p.1) = ls := by
  induction ls generalizing x with
  | nil => rfl
  | cons l ls ih => simp [spans, ih]

omit [LinearOrder K] [IsStrictOrderedRing K] in
theorem spans_last (sep x l : K) (ls : List K) :
    ∃ p, (spans sep x (l :: ls)).getLast? = some p ∧ p.2 = x + l + ls.sum + sep * ls.length := by
  induction ls generalizing x l with
  | nil => exact ⟨(x, x + l), rfl, by simp⟩
  | cons m ls ih =>
    obtain ⟨p, hp, e⟩ := ih (x + l + sep) m
    refine ⟨p, ?_, ?_⟩
    · rw [spans, spans] at *
      rw [List.getLast?_cons_cons]
      exact hp
    · rw [e]; push_cast [List.sum_cons, List.length_cons]; ring

theorem spans_tiles (sep x : K) (ls : List K) (hne : ls ≠ []) (hpos : ∀ l ∈ ls, 0 < l) :
    Tiles x (x + ls.sum + sep * (ls.length - 1 : K)) sep (spans sep x ls) := by
  refine ⟨?_, ?_, ?_, ?_⟩
  · cases ls with
    | nil => exact absurd rfl hne
    | cons l ls => exact ⟨_, rfl, rfl⟩
  · cases ls with
    | nil => exact absurd rfl hne
    | cons l ls =>
      obtain ⟨p, hp, e⟩ := spans_last sep x l ls
      refine ⟨p, hp, ?_⟩
      rw [e]; push_cast [List.sum_cons, List.length_cons]; ring
  · clear hne
    induction ls generalizing x with
    | nil => simp [spans]
    | cons l ls ih =>
      intro p hp
      rcases List.mem_cons.1 hp with rfl | hp
      · have := hpos l (by simp); simp [this]
      · exact ih _ (fun m hm => hpos m (by simp [hm])) p hp
  · clear hne hpos
    induction ls generalizing x with
    | nil => intro k p q h; simp [spans] at h
    | cons l ls ih =>
      intro k p q hp hq
      cases k with
      | zero =>
        cases ls with
        | nil => simp [spans] at hq
        | cons m ls =>
          simp only [spans, List.getElem?_cons_zero, List.getElem?_cons_succ, Option.some.injEq] at hp hq
          rw [← hp, ← hq]
      | succ k => exact ih _ k p q hp hq

/-- Where the tiles of an image are, if the map is a shift. -/
theorem Spec.Tiles.shift {a b gap c : K} {xs : List (K × K)} (h : Tiles a b gap xs) :
    Tiles (c + a) (c + b) gap (xs.map fun p => (c + p.1, c + p.2)) := by
  obtain ⟨⟨p, hp, ep⟩, ⟨q, hq, eq⟩, hpos, hnext⟩ := h
  refine ⟨⟨_, by rw [List.head?_map, hp]; rfl, by simp only [ep]⟩, ⟨_, by rw [List.getLast?_map, hq]; rfl, by simp only [eq]⟩, ?_, ?_⟩
  · intro r hr
    obtain ⟨s, hs, rfl⟩ := List.mem_map.1 hr
    have := hpos s hs
    simp only; linarith
  · intro k r s hr hs
    rw [List.getElem?_map, Option.map_eq_some_iff] at hr hs
    obtain ⟨r', hr', rfl⟩ := hr
    obtain ⟨s', hs', rfl⟩ := hs
    have := hnext k r' s' hr' hs'
    simp only; linarith

/-- Mirrored and reversed tiles are tiles. -/
theorem Spec.Tiles.mirror {a b gap c : K} {xs : List (K × K)} (h : Tiles a b gap xs) :
    Tiles (c - b) (c - a) gap (xs.map fun p => (c - p.2, c - p.1)).reverse := by
  obtain ⟨⟨p, hp, ep⟩, ⟨q, hq, eq⟩, hpos, hnext⟩ := h
  refine ⟨⟨_, by rw [List.head?_reverse, List.getLast?_map, hq]; rfl, by simp only [eq]⟩,
    ⟨_, by rw [List.getLast?_reverse, List.head?_map, hp]; rfl, by simp only [ep]⟩, ?_, ?_⟩
  · intro r hr
    obtain ⟨s, hs, rfl⟩ := List.mem_map.1 (List.mem_reverse.1 hr)
    have := hpos s hs
    simp only; linarith
  · intro k r s hr hs
    have hlt : k + 1 < xs.length := by
      have := (List.getElem?_eq_some_iff.1 hs).1
      simpa using this
    rw [List.getElem?_reverse (by simp; omega), List.getElem?_map, Option.map_eq_some_iff] at hr hs
    obtain ⟨r', hr', rfl⟩ := hr
    obtain ⟨s', hs', rfl⟩ := hs
    rw [List.length_map] at hr' hs'
    have := hnext (xs.length - 1 - (k + 1)) s' r' hs' (by rw [← hr']; congr 1; omega)
    simp only; linarith

/-- Later tiles begin after earlier ones. -/
theorem Spec.Tiles.ordered {a b gap : K} {xs : List (K × K)} (h : Tiles a b gap xs) (hgap : 0 ≤ gap) :
    ∀ (d k : Nat) (p q : K × K), xs[k]? = some p → xs[k + 1 + d]? = some q → p.2 + gap ≤ q.1 := by
  intro d
  induction d with
  | zero => intro k p q hp hq; exact (h.next k p q hp hq).ge
  | succ d ih =>
    intro k p q hp hq
    have hlt : k + 1 + (d + 1) < xs.length := (List.getElem?_eq_some_iff.1 hq).1
    have hr : xs[k + 1 + d]? = some (xs[k + 1 + d]'(by omega)) := List.getElem?_eq_getElem (by omega)
    have h1 := ih k p _ hp hr
    have h2 := h.next (k + 1 + d) _ q hr (by rw [← hq]; congr 1)
    have h3 := h.pos _ (List.mem_of_getElem? hr)
    linarith

/-- All tiles lie between the ends. -/
theorem Spec.Tiles.bounds {a b gap : K} {xs : List (K × K)} (h : Tiles a b gap xs) (hgap : 0 ≤ gap) :
    ∀ p ∈ xs, a ≤ p.1 ∧ p.2 ≤ b := by
  intro p hp
  obtain ⟨k, hk, rfl⟩ := List.mem_iff_getElem.1 hp
  obtain ⟨⟨f, hf, ef⟩, ⟨l, hl, el⟩, hpos, -⟩ := id h
  have hkk : xs[k]? = some xs[k] := List.getElem?_eq_getElem hk
  constructor
  · cases k with
    | zero =>
      rw [List.head?_eq_getElem?, hkk] at hf
      rw [Option.some.inj hf, ef]
    | succ k =>
      rw [List.head?_eq_getElem?] at hf
      have h1 := h.ordered hgap k 0 f _ hf (by rw [← hkk]; congr 1; omega)
      have h2 := hpos f (List.mem_of_getElem? hf)
      rw [← ef]; linarith
  · rw [List.getLast?_eq_getElem?] at hl
    by_cases hlast : k = xs.length - 1
    · rw [← hlast, hkk] at hl
      rw [Option.some.inj hl, el]
    · have h1 := h.ordered hgap (xs.length - 1 - (k + 1)) k _ l hkk (by rw [← hl]; congr 1; omega)
      have h2 := hpos l (List.mem_of_getElem? hl)
      rw [← el]; linarith

omit [LinearOrder K] [IsStrictOrderedRing K] in
theorem sum_map_scaled (c : K) (ls : List K) : (ls.map (· * c)).sum = ls.sum * c := by
  induction ls with
  | nil => simp
  | cons l ls ih => simp [ih, add_mul]

/-- The grid in one direction fills the length; the gap is `space` times the mean length. -/
theorem gridSpans_tiles {total space : K} {ratios : List K} (ht : 0 < total) (hs : 0 ≤ space) (hne : ratios ≠ [])
    (hpos : ∀ r ∈ ratios, 0 < r) :
    Tiles 0 total (space * (total / (ratios.length + space * (ratios.length - 1))))
      (gridSpans total space ratios) := by
  have hn : (1 : K) ≤ ratios.length := by
    exact_mod_cast List.length_pos_iff.2 hne
  have hd : 0 < (ratios.length : K) + space * (ratios.length - 1) := by
    have := mul_nonneg hs (sub_nonneg.2 hn); linarith
  have hsum : 0 < ratios.sum := List.sum_pos ratios hpos hne
  have hnorm : 0 < total / (ratios.length + space * (ratios.length - 1)) * ratios.length / ratios.sum := by positivity
  have h := spans_tiles (space * (total / (ratios.length + space * (ratios.length - 1)))) 0
    (ratios.map (· * (total / (ratios.length + space * (ratios.length - 1)) * ratios.length / ratios.sum)))
    (by simpa using hne) (by
      intro l hl
      obtain ⟨r, hr, rfl⟩ := List.mem_map.1 hl
      exact mul_pos (hpos r hr) hnorm)
  have e : (0 : K) + (ratios.map (· * (total / (ratios.length + space * (ratios.length - 1)) * ratios.length / ratios.sum))).sum
      + space * (total / (ratios.length + space * (ratios.length - 1)))
        * (((ratios.map (· * (total / (ratios.length + space * (ratios.length - 1)) * ratios.length / ratios.sum))).length : K) - 1)
      = total := by
    rw [sum_map_scaled, List.length_map, zero_add]
    have h1 := hd.ne'
    have h2 := hsum.ne'
    field_simp
  rw [e] at h
  exact h

omit [IsStrictOrderedRing K] in
theorem gridMargin_ok {size m : K} (h : gridMargin size = .ok m) :
    size ≠ 0 ∧ m = min (max (17 / 20 / size) (1 / 10)) (3 / 10) := by
  unfold gridMargin at h
  rw [bind_ok_iff] at h
  obtain ⟨_, h1, h2⟩ := h
  rw [ensure_ok_iff, decide_eq_true_eq] at h1
  exact ⟨h1, (pure_ok_iff.1 h2).symm⟩

theorem gridMargin_bounds {size m : K} (h : gridMargin size = .ok m) : 1 / 10 ≤ m ∧ m ≤ 3 / 10 := by
  rw [(gridMargin_ok h).2]
  exact ⟨le_min (le_max_right _ _) (by norm_num), min_le_right _ _⟩

theorem gridRatios_pos (cfg : GridConfig K) (n : Nat) (hn : n ≠ 0) :
    ((gridRatios cfg n).1.length = n ∧ (gridRatios cfg n).1 ≠ [] ∧ ∀ r ∈ (gridRatios cfg n).1, 0 < r) ∧
    ((gridRatios cfg n).2.length = n ∧ (gridRatios cfg n).2 ≠ [] ∧ ∀ r ∈ (gridRatios cfg n).2, 0 < r) := by
  unfold gridRatios
  split
  · rename_i h
    rw [h.1]
    simp
  · simp [hn]

omit [IsStrictOrderedRing K] in
theorem triangleGrid_ok {cfg : GridConfig K} {columns : Nat} {w h : K} {g : PanelGrid K}
    (hg : triangleGrid cfg columns w h = .ok g) :
    gridCount cfg columns ≠ 0 ∧ 0 ≤ w ∧ 0 ≤ h ∧ ∃ left bottom, gridMargin w = .ok left ∧ gridMargin h = .ok bottom ∧
      g.cols = (gridSpans (19 / 20 - left) (1 / 20 * gridSpacing cfg (gridCount cfg columns))
        (gridRatios cfg (gridCount cfg columns)).1).map (fun p => (left + p.1, left + p.2)) ∧
      g.rows = (gridSpans (9 / 10 - bottom) (1 / 20 * gridSpacing cfg (gridCount cfg columns))
        (gridRatios cfg (gridCount cfg columns)).2).map (fun p => (9 / 10 - p.2, 9 / 10 - p.1)) := by
  unfold triangleGrid at hg
  rw [bind_ok_iff] at hg
  obtain ⟨_, h1, hg⟩ := hg
  rw [bind_ok_iff] at hg
  obtain ⟨_, h2, hg⟩ := hg
  rw [bind_ok_iff] at hg
  obtain ⟨left, h3, hg⟩ := hg
  rw [bind_ok_iff] at hg
  obtain ⟨bottom, h4, hg⟩ := hg
  rw [ensure_ok_iff, decide_eq_true_eq] at h1 h2
  have e := pure_ok_iff.1 hg
  exact ⟨h1, h2.1, h2.2, left, bottom, h3, h4, by rw [← e], by rw [← e]⟩

theorem gridSpacing_nonneg (cfg : GridConfig K) (n : Nat) (hs : ∀ s, cfg.spacing = some s → 0 ≤ s) :
    0 ≤ gridSpacing cfg n := by
  unfold gridSpacing
  split
  · rename_i s h; exact hs s h
  · split <;> simp

omit [IsStrictOrderedRing K] in
/-- **C98**. A figure is made exactly if there is a panel and both sizes are positive. -/
theorem C98_made (cfg : GridConfig K) (columns : Nat) (w h : K) :
    (∃ g, triangleGrid cfg columns w h = .ok g) ↔
      (if cfg.hists = true then 1 else 2) ≤ columns ∧ 0 < w ∧ 0 < h := by
  have hcount : gridCount cfg columns ≠ 0 ↔ (if cfg.hists = true then 1 else 2) ≤ columns := by
    unfold gridCount
    split <;> omega
  constructor
  · rintro ⟨g, hg⟩
    obtain ⟨h1, h2, h3, l, b, h4, h5, -⟩ := triangleGrid_ok hg
    exact ⟨hcount.1 h1, lt_of_le_of_ne h2 (gridMargin_ok h4).1.symm, lt_of_le_of_ne h3 (gridMargin_ok h5).1.symm⟩
  · rintro ⟨h1, h2, h3⟩
    have hc := hcount.2 h1
    unfold triangleGrid gridMargin ensure
    simp only [hc, h2.le, h3.le, h2.ne', h3.ne', ne_eq, not_false_eq_true, decide_true, and_self, if_true, bind, Except.bind,
      pure, Except.pure]
    exact ⟨_, rfl⟩

/-- What the grid consists of: margins, mean lengths `cx` and `cy`, gaps and lengths. -/
theorem triangleGrid_tiles {cfg : GridConfig K} {columns n : Nat} {w h sp : K} {g : PanelGrid K}
    (hg : triangleGrid cfg columns w h = .ok g) (hs : ∀ s, cfg.spacing = some s → 0 ≤ s)
    (en : gridCount cfg columns = n) (es : 1 / 20 * gridSpacing cfg n = sp) :
    n ≠ 0 ∧ 0 ≤ sp ∧ g.cols.length = n ∧ g.rows.length = n ∧ ∃ l b cx cy, gridMargin w = .ok l ∧ gridMargin h = .ok b ∧
      0 < cx ∧ 0 < cy ∧ Tiles l (19 / 20) (sp * cx) g.cols ∧ Tiles b (9 / 10) (sp * cy) g.rows.reverse ∧
      Lengths g.cols ((gridRatios cfg n).1.map (· * (cx * n / (gridRatios cfg n).1.sum))) ∧
      Lengths g.rows ((gridRatios cfg n).2.map (· * (cy * n / (gridRatios cfg n).2.sum))) := by
  obtain ⟨h1, h2, h3, l, b, h4, h5, hc, hr⟩ := triangleGrid_ok hg
  rw [en] at h1 hc hr
  rw [es] at hc hr
  obtain ⟨⟨rl, rn, rp⟩, ⟨sl, sn, sp'⟩⟩ := gridRatios_pos cfg _ h1
  have hsp : 0 ≤ sp := by
    have := gridSpacing_nonneg cfg n hs
    rw [← es]; positivity
  have hb := gridMargin_bounds h5
  have hl := gridMargin_bounds h4
  have hlt : 0 < 19 / 20 - l := by
    have : (3 / 10 : K) < 19 / 20 := by norm_num
    linarith
  have hbt : 0 < 9 / 10 - b := by
    have : (3 / 10 : K) < 9 / 10 := by norm_num
    linarith
  have hn : (1 : K) ≤ n := by exact_mod_cast Nat.one_le_iff_ne_zero.2 h1
  have hd : 0 < (n : K) + sp * (n - 1) := by
    have := mul_nonneg hsp (sub_nonneg.2 hn); linarith
  have t1 := (gridSpans_tiles hlt hsp rn rp).shift (c := l)
  have t2 := (gridSpans_tiles hbt hsp sn sp').mirror (c := 9 / 10)
  rw [rl, ← hc, show l + (19 / 20 - l) = 19 / 20 by ring, add_zero] at t1
  rw [sl, ← hr, show 9 / 10 - (9 / 10 - b) = b by ring, sub_zero] at t2
  refine ⟨h1, hsp, ?_, ?_, l, b, _, _, h4, h5, div_pos hlt hd, div_pos hbt hd, t1, t2, ?_, ?_⟩
  · rw [hc, List.length_map, gridSpans, spans_length, List.length_map, rl]
  · rw [hr, List.length_map, gridSpans, spans_length, List.length_map, sl]
  · have e := spans_lengths (sp * ((19 / 20 - l) / (((gridRatios cfg n).1.length : K) + sp * ((gridRatios cfg n).1.length - 1)))) 0
      ((gridRatios cfg n).1.map (· * ((19 / 20 - l) / (((gridRatios cfg n).1.length : K) + sp * ((gridRatios cfg n).1.length - 1))
        * (gridRatios cfg n).1.length / (gridRatios cfg n).1.sum)))
    unfold Lengths
    rw [hc, List.map_map]
    refine Eq.trans ?_ (e.trans ?_)
    · refine List.map_congr_left fun p _ => ?_
      simp only [Function.comp]; ring
    · rw [rl]
  · have e := spans_lengths (sp * ((9 / 10 - b) / (((gridRatios cfg n).2.length : K) + sp * ((gridRatios cfg n).2.length - 1)))) 0
      ((gridRatios cfg n).2.map (· * ((9 / 10 - b) / (((gridRatios cfg n).2.length : K) + sp * ((gridRatios cfg n).2.length - 1))
        * (gridRatios cfg n).2.length / (gridRatios cfg n).2.sum)))
    unfold Lengths
    rw [hr, List.map_map]
    refine Eq.trans ?_ (e.trans ?_)
    · refine List.map_congr_left fun p _ => ?_
      simp only [Function.comp]; ring
    · rw [sl]

/-- **C98**. The columns of panels fill the figure from the left margin to 95 % of the width and the rows, read upwards, from the
bottom margin to 90 % of the height, with equal gaps. There are as many rows as columns: one for every parameter with histograms and
one fewer without. The margins are 0.85 inches, but at least 10 % and at most 30 % of the figure. -/
theorem C98_fills {cfg : GridConfig K} {columns : Nat} {w h : K} {g : PanelGrid K}
    (hg : triangleGrid cfg columns w h = .ok g) (hs : ∀ s, cfg.spacing = some s → 0 ≤ s) :
    (g.cols.length + (if cfg.hists = true then 0 else 1) = columns ∧ g.rows.length = g.cols.length) ∧
    ∃ left bottom gapX gapY, 0 ≤ gapX ∧ 0 ≤ gapY ∧
      Tiles left (19 / 20) gapX g.cols ∧ Tiles bottom (9 / 10) gapY g.rows.reverse ∧
      left = min (max (17 / 20 / w) (1 / 10)) (3 / 10) ∧ bottom = min (max (17 / 20 / h) (1 / 10)) (3 / 10) := by
  obtain ⟨hn, hsp, hc, hr, l, b, cx, cy, hl, hb, px, py, t1, t2, -, -⟩ := triangleGrid_tiles hg hs rfl rfl
  refine ⟨⟨?_, hr.trans hc.symm⟩, l, b, _, _, mul_nonneg hsp px.le, mul_nonneg hsp py.le, t1, t2, (gridMargin_ok hl).2,
    (gridMargin_ok hb).2⟩
  rw [hc]
  unfold gridCount at hn ⊢
  split at hn
  · rename_i e; simp [e]
  · rename_i e; simp only [e, if_false, Bool.false_eq_true]; omega

/-- **C98**. Every panel lies within the figure and no two panels overlap. -/
theorem C98_apart {cfg : GridConfig K} {columns : Nat} {w h : K} {g : PanelGrid K}
    (hg : triangleGrid cfg columns w h = .ok g) (hs : ∀ s, cfg.spacing = some s → 0 ≤ s)
    {i j : Nat} {x y : K × K} (hx : g.cols[j]? = some x) (hy : g.rows[i]? = some y) :
    (1 / 10 ≤ x.1 ∧ x.1 < x.2 ∧ x.2 ≤ 19 / 20 ∧ 1 / 10 ≤ y.1 ∧ y.1 < y.2 ∧ y.2 ≤ 9 / 10) ∧
    ∀ (i' j' : Nat) (x' y' : K × K), g.cols[j']? = some x' → g.rows[i']? = some y' → (i, j) ≠ (i', j') → Apart x y x' y' := by
  obtain ⟨-, l, b, gx, gy, hgx, hgy, tx, ty, el, eb⟩ := C98_fills hg hs
  have hl : 1 / 10 ≤ l := by rw [el]; exact le_min (le_max_right _ _) (by norm_num)
  have hb : 1 / 10 ≤ b := by rw [eb]; exact le_min (le_max_right _ _) (by norm_num)
  have mx := List.mem_of_getElem? hx
  have my := List.mem_reverse.2 (List.mem_of_getElem? hy)
  have bx := tx.bounds hgx x mx
  have bY := ty.bounds hgy y my
  refine ⟨⟨hl.trans bx.1, tx.pos x mx, bx.2, hb.trans bY.1, ty.pos y my, bY.2⟩, ?_⟩
  have colsLt : ∀ (k m : Nat) (p q : K × K), k < m → g.cols[k]? = some p → g.cols[m]? = some q → p.2 ≤ q.1 := by
    intro k m p q hkm hp hq
    have := tx.ordered hgx (m - (k + 1)) k p q hp (by rw [← hq]; congr 1; omega)
    linarith
  have rowsLt : ∀ (k m : Nat) (p q : K × K), k < m → g.rows[k]? = some p → g.rows[m]? = some q → q.2 ≤ p.1 := by
    intro k m p q hkm hp hq
    have hm : m < g.rows.length := (List.getElem?_eq_some_iff.1 hq).1
    have := ty.ordered hgy (m - (k + 1)) (g.rows.length - 1 - m) q p
      (by rw [List.getElem?_reverse (by omega), ← hq]; congr 1; omega)
      (by rw [List.getElem?_reverse (by omega), ← hp]; congr 1; omega)
    linarith
  rintro i' j' x' y' hx' hy' hne ⟨a, c, ⟨a1, a2, c1, c2⟩, ⟨a3, a4, c3, c4⟩⟩
  rcases lt_trichotomy j j' with hj | hj | hj
  · have := colsLt j j' x x' hj hx hx'; linarith
  · rcases lt_trichotomy i i' with hi | hi | hi
    · have := rowsLt i i' y y' hi hy hy'; linarith
    · exact hne (by rw [hi, hj])
    · have := rowsLt i' i y' y hi hy' hy; linarith
  · have := colsLt j' j x' x hj hx' hx; linarith

/-- **C98**. All panels have the same size, and the gaps are 5 % of it times the configured spacing; the spacing of a figure that
configures none is one up to five rows and zero from six rows. -/
theorem C98_equal {cfg : GridConfig K} {columns : Nat} {w h : K} {g : PanelGrid K}
    (hg : triangleGrid cfg columns w h = .ok g) (hs : ∀ s, cfg.spacing = some s → 0 ≤ s)
    (hplain : ¬ (columns = 2 ∧ cfg.hists = true ∧ cfg.flip = true)) :
    ∃ width height spacing, 0 < width ∧ 0 < height ∧
      Lengths g.cols (List.replicate g.cols.length width) ∧ Lengths g.rows (List.replicate g.cols.length height) ∧
      (∀ (k : Nat) (p q : K × K), g.cols[k]? = some p → g.cols[k + 1]? = some q → q.1 - p.2 = 1 / 20 * spacing * width) ∧
      (∀ (k : Nat) (p q : K × K), g.rows[k]? = some p → g.rows[k + 1]? = some q → p.1 - q.2 = 1 / 20 * spacing * height) ∧
      (∀ s, cfg.spacing = some s → spacing = s) ∧
      (cfg.spacing = none → g.cols.length ≤ 5 → spacing = 1) ∧ (cfg.spacing = none → 6 ≤ g.cols.length → spacing = 0) := by
  obtain ⟨hn, hsp, hc, hr, l, b, cx, cy, hl, hb, px, py, t1, t2, l1, l2⟩ := triangleGrid_tiles hg hs rfl rfl
  have hn' : ((gridCount cfg columns : ℕ) : K) ≠ 0 := by exact_mod_cast hn
  have hrat : gridRatios cfg (gridCount cfg columns) =
      (List.replicate (gridCount cfg columns) 1, List.replicate (gridCount cfg columns) 1) := by
    unfold gridRatios
    rw [if_neg]
    rintro ⟨e1, e2, e3⟩
    refine hplain ⟨?_, e2, e3⟩
    unfold gridCount at e1
    rwa [if_pos e2] at e1
  rw [hrat] at l1 l2
  simp only [List.map_replicate, List.sum_replicate, nsmul_eq_mul, mul_one, one_mul, mul_div_assoc, div_self hn'] at l1 l2
  refine ⟨cx, cy, gridSpacing cfg (gridCount cfg columns), px, py, ?_, ?_, ?_, ?_, ?_, ?_, ?_⟩
  · rw [hc]; exact l1
  · rw [hc]; exact l2
  · intro k p q hp hq
    rw [t1.next k p q hp hq]; ring
  · intro k p q hp hq
    have hk : k + 1 < g.rows.length := (List.getElem?_eq_some_iff.1 hq).1
    rw [t2.next (g.rows.length - 1 - (k + 1)) q p
      (by rw [List.getElem?_reverse (by omega), ← hq]; congr 1; omega)
      (by rw [List.getElem?_reverse (by omega), ← hp]; congr 1; omega)]
    ring
  · intro s e
    unfold gridSpacing
    rw [e]
  · intro e h5
    unfold gridSpacing
    rw [e]
    exact if_pos (by omega)
  · intro e h5
    unfold gridSpacing
    rw [e]
    exact if_neg (by omega)

/-- **C98**. The two by two figure with a flipped histogram: the left column is three times as wide as the right one and the lower
row three times as high as the upper one. -/
theorem C98_flipped {cfg : GridConfig K} {w h : K} {g : PanelGrid K}
    (hg : triangleGrid cfg 2 w h = .ok g) (hs : ∀ s, cfg.spacing = some s → 0 ≤ s)
    (hh : cfg.hists = true) (hf : cfg.flip = true) :
    ∃ width height, 0 < width ∧ 0 < height ∧ Lengths g.cols [3 * width, width] ∧ Lengths g.rows [height, 3 * height] := by
  obtain ⟨hn, hsp, hc, hr, l, b, cx, cy, hl, hb, px, py, t1, t2, l1, l2⟩ := triangleGrid_tiles hg hs rfl rfl
  have e : gridCount cfg 2 = 2 := by unfold gridCount; rw [if_pos hh]
  rw [e] at l1 l2
  have hrat : gridRatios cfg 2 = (([3, 1], [1, 3]) : List K × List K) := by
    unfold gridRatios
    rw [if_pos ⟨rfl, hh, hf⟩]
  rw [hrat] at l1 l2
  refine ⟨cx / 2, cy / 2, by positivity, by positivity, ?_, ?_⟩
  · unfold Lengths at l1 ⊢
    rw [l1]
    simp only [List.map_cons, List.map_nil, List.sum_cons, List.sum_nil]
    congr 1
    · push_cast; ring
    · congr 1; push_cast; ring
  · unfold Lengths at l2 ⊢
    rw [l2]
    simp only [List.map_cons, List.map_nil, List.sum_cons, List.sum_nil]
    congr 1
    · push_cast; ring
    · congr 1; push_cast; ring

/-- **C98**. The left margin is at least 0.85 inches in figures of at least 17/6 inches and exactly that in figures between 17/6 and
8.5 inches; the same holds for the bottom margin and the height. -/
theorem C98_margins {size : K} (h : 0 < size) :
    (17 / 6 ≤ size → 17 / 20 ≤ size * min (max (17 / 20 / size) (1 / 10)) (3 / 10)) ∧
    (17 / 6 ≤ size → size ≤ 17 / 2 → size * min (max (17 / 20 / size) (1 / 10)) (3 / 10) = 17 / 20) ∧
    (size < 17 / 6 → size * min (max (17 / 20 / size) (1 / 10)) (3 / 10) < 17 / 20) := by
  have e : size * (17 / 20 / size) = 17 / 20 := by field_simp
  refine ⟨fun h1 => ?_, fun h1 h2 => ?_, fun h1 => ?_⟩
  · rw [mul_min_of_nonneg _ _ h.le, mul_max_of_nonneg _ _ h.le, e]
    exact le_min (le_max_left _ _) (by linarith)
  · rw [mul_min_of_nonneg _ _ h.le, mul_max_of_nonneg _ _ h.le, e, max_eq_left (by linarith), min_eq_left (by linarith)]
  · rw [mul_min_of_nonneg _ _ h.le]
    exact (min_le_right _ _).trans_lt (by linarith)

end

/-- A figure of three parameters, 8 inches wide and 4 inches high. -/
example : ∃ g, triangleGrid (K := ℚ) ⟨true, false, none⟩ 3 8 4 = .ok g ∧ g.cols.length = 3 ∧
    g.cols.head?.map Prod.fst = some (17 / 160) ∧ g.rows.getLast?.map Prod.fst = some (17 / 80) :=
  ⟨_, rfl, by decide +kernel, by decide +kernel, by decide +kernel⟩

/-- A flipped figure of two parameters. -/
example : ∃ g, triangleGrid (K := ℚ) ⟨true, true, none⟩ 2 6 6 = .ok g ∧ g.cols.length = 2 :=
  ⟨_, rfl, by decide +kernel⟩

/-- Without histograms a single parameter has no panel. -/
example : triangleGrid (K := ℚ) ⟨false, false, none⟩ 1 6 6 = .error .value := rfl

end CC
