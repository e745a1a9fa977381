import Verif.Model.ContourLabels
import Verif.Lemmas.Format
import Verif.Lemmas.Demo
import Verif.Props.Levels
import Verif.Props.DrawnContours
import Mathlib.Analysis.Complex.ExponentialBounds

/-! # C82: labels of contours -/

namespace CC
open Spec

theorem takeWhile_digits {ip : List Char} (h : ∀ c ∈ ip, c.isDigit = true) (fp : List Char) (d : ℕ) :
    (ip ++ (if d = 0 then [] else '.' :: fp)).takeWhile Char.isDigit = ip ∧
      (ip ++ (if d = 0 then [] else '.' :: fp)).dropWhile Char.isDigit = (if d = 0 then [] else '.' :: fp) := by
  have h1 : (if d = 0 then [] else '.' :: fp : List Char).takeWhile Char.isDigit = [] := by
    split
    · rfl
    · rw [List.takeWhile_cons_of_neg (by decide)]
  have h2 : (if d = 0 then [] else '.' :: fp : List Char).dropWhile Char.isDigit = (if d = 0 then [] else '.' :: fp) := by
    split
    · rfl
    · rw [List.dropWhile_cons_of_neg (by decide)]
  rw [List.takeWhile_append_of_pos h, List.dropWhile_append_of_pos h, h1, h2, List.append_nil]
  exact ⟨rfl, rfl⟩

/-- A numeral has one value. -/
theorem numeral_unique {K : Type} [Field K] {s : String} {d d' : ℕ} {v v' : K} (h : Numeral s d v) (h' : Numeral s d' v') :
    d = d' ∧ v = v' := by
  obtain ⟨neg, ip, fp, h1, h2, h3, h4, rfl⟩ := h
  obtain ⟨neg', ip', fp', h1', h2', h3', h4', rfl⟩ := h'
  have hd : ∀ l : List Char, (∀ c ∈ l, c.isDigit = true) → l ≠ [] → ∀ r, (l ++ r).head? ≠ some '-' := by
    intro l hl hne r he
    cases l with
    | nil => exact hne rfl
    | cons x xs =>
      have hx := hl x (by simp)
      obtain rfl : x = '-' := by simpa using he
      exact absurd hx (by decide)
  have hip : ∀ c ∈ ip, c.isDigit = true := fun c hc => h4 c (List.mem_append_left _ hc)
  have hip' : ∀ c ∈ ip', c.isDigit = true := fun c hc => h4' c (List.mem_append_left _ hc)
  rw [h1, List.append_assoc, List.append_assoc] at h1'
  have hneg : neg = neg' ∧ ip ++ (if d = 0 then [] else '.' :: fp) = ip' ++ (if d' = 0 then [] else '.' :: fp') := by
    cases neg <;> cases neg'
    · exact ⟨rfl, by simpa using h1'⟩
    · exact absurd (congrArg List.head? h1') (by simpa using hd ip hip h2 _)
    · exact absurd (congrArg List.head? h1').symm (by simpa using hd ip' hip' h2' _)
    · exact ⟨rfl, by simpa using h1'⟩
  obtain ⟨rfl, e⟩ := hneg
  have e1 : ip = ip' := by
    rw [← (takeWhile_digits hip fp d).1, e, (takeWhile_digits hip' fp' d').1]
  have e2 : (if d = 0 then [] else '.' :: fp : List Char) = if d' = 0 then [] else '.' :: fp' := by
    rw [← (takeWhile_digits hip fp d).2, e, (takeWhile_digits hip' fp' d').2]
  have e3 : d = d' ∧ fp = fp' := by
    by_cases c : d = 0 <;> by_cases c' : d' = 0
    · subst c c'
      exact ⟨rfl, by rw [List.length_eq_zero_iff.1 h3, List.length_eq_zero_iff.1 h3']⟩
    · simp [c, c'] at e2
    · simp [c, c'] at e2
    · simp only [c, c', if_false, List.cons.injEq, true_and] at e2
      exact ⟨by rw [← h3, ← h3', e2], e2⟩
  obtain ⟨rfl, rfl⟩ := e3
  subst e1
  exact ⟨rfl, rfl⟩

theorem halfEven_mono {x y : ℝ} (hx : 0 ≤ x) (h : x ≤ y) : halfEven x ≤ halfEven y := by
  rcases h.eq_or_lt with rfl | h
  · exact le_rfl
  by_contra hc
  push Not at hc
  have h1 := abs_le.1 (halfEven_spec hx)
  have h2 := abs_le.1 (halfEven_spec (hx.trans h.le))
  have h3 : (halfEven y : ℝ) + 1 ≤ (halfEven x : ℝ) := by exact_mod_cast hc
  linarith [h1.2, h2.1]

/-- A percentage: between blanks, with a percent sign; `v` is its number and `d` the number of its decimals. -/
def Spec.Percentage (t : String) (d : ℕ) (v : ℝ) : Prop := ∃ N, t = " " ++ N ++ "% " ∧ Numeral N d v

theorem percentage_unique {t : String} {d d' : ℕ} {v v' : ℝ} (h : Percentage t d v) (h' : Percentage t d' v') : d = d' ∧ v = v' := by
  obtain ⟨N, h1, h2⟩ := h
  obtain ⟨N', h1', h2'⟩ := h'
  have : N = N' := by
    rw [h1] at h1'
    have := congrArg String.toList h1'
    simp only [String.toList_append, List.append_assoc, List.append_cancel_left_eq] at this
    rw [← String.toList_inj]
    exact List.append_cancel_right this
  subst this
  exact numeral_unique h2 h2'

/-- The label of a level: whole percents below 99.1 percent, tenths of a percent from there. -/
theorem levelLabel_spec {l : ℝ} (h : 0 ≤ l) : ∃ d v, Percentage (levelLabel l) d v ∧
    (l < 991 / 1000 → d = 0 ∧ v = halfEven (l * 100) ∧ |v - 100 * l| ≤ 1 / 2) ∧
    (991 / 1000 ≤ l → d = 1 ∧ v = halfEven (l * 1000) / 10 ∧ |v - 100 * l| ≤ 1 / 20) := by
  have hneg : (Signed.of (l * 100)).neg = false := by
    simp only [Signed.of, decide_eq_false_iff_not, not_lt]
    positivity
  have habs : (Signed.of (l * 100)).abs = l * 100 := abs_of_nonneg (by positivity)
  by_cases hl : l < 991 / 1000
  · refine ⟨0, _, ⟨_, by simp only [levelLabel, hl, if_true], text_numeral 0 (Signed.of (l * 100))⟩, fun _ => ⟨rfl, ?_, ?_⟩,
      fun hc => absurd hl (not_lt.2 hc)⟩
    · rw [hneg, habs]
      simp
    · rw [hneg, habs]
      have := halfEven_spec (x := l * 100) (by positivity)
      simp only [Bool.false_eq_true, if_false, one_mul, pow_zero, div_one, mul_one]
      rwa [mul_comm 100 l]
  · refine ⟨1, _, ⟨_, by simp only [levelLabel, hl, if_false], text_numeral 1 (Signed.of (l * 100))⟩, fun hc => absurd hc hl,
      fun _ => ⟨rfl, ?_, ?_⟩⟩
    · rw [hneg, habs]
      simp only [Bool.false_eq_true, if_false, one_mul, pow_one]
      rw [mul_assoc]
      norm_num
    · rw [hneg, habs]
      have := abs_le.1 (halfEven_spec (x := l * 100 * 10) (by positivity))
      simp only [Bool.false_eq_true, if_false, one_mul, pow_one]
      rw [abs_le]
      constructor <;> linarith [this.1, this.2]

/-- The level of a contour crosses the surface: it is strictly between two of its values. -/
def Spec.Crosses (vals : List (List ℝ)) (l : ℝ) : Prop := (∃ r ∈ vals, ∃ v ∈ r, v < l) ∧ ∃ r ∈ vals, ∃ v ∈ r, l < v

theorem conLevels_crosses {levels : List ℝ} {vals : List (List ℝ)} (h : ∃ l ∈ levels, Crosses vals l) :
    conLevels levels vals = .ok levels := by
  refine if_pos ?_
  obtain ⟨l, hl, ⟨r, hr, v, hv, h1⟩, r', hr', v', hv', h2⟩ := h
  exact ⟨l, hl, ⟨v, List.mem_flatten.2 ⟨r, hr, hv⟩, h1⟩, v', List.mem_flatten.2 ⟨r', hr', hv'⟩, h2⟩

theorem conLevels_else {levels : List ℝ} {vals : List (List ℝ)} (h : ∀ l ∈ levels, ¬ Crosses vals l) :
    conLevels levels vals = do return [← arrMin vals.flatten] := by
  refine if_neg ?_
  rintro ⟨l, hl, ⟨v, hv, h1⟩, v', hv', h2⟩
  obtain ⟨r, hr, hv⟩ := List.mem_flatten.1 hv
  obtain ⟨r', hr', hv'⟩ := List.mem_flatten.1 hv'
  exact h l hl ⟨⟨r, hr, v, hv, h1⟩, r', hr', v', hv', h2⟩

/-- **C82, partial**: the labels of contours. Without `show_contour_labels` there is none; with it exactly the contours of positive
sigmas are labelled, in order, each with the mass its contour encloses, to the nearest percent below 99.1 percent and to the
nearest tenth of a percent from there. Here at least one level crosses the surface; otherwise see `C82_fallback`. Missing: that
the labels tell the contours apart (`C82_violated`, but `C82_distinct_partial`). -/
theorem C82_labels_partial (cfg : PlotConfig) (c : Chain ℝ) (vals : List (List ℝ)) (h : ∀ s ∈ c.cfg .sigmas, 0 ≤ s) :
    (c.cfg .showContourLabels = false → contourLabels cfg c vals = .ok []) ∧
    (c.cfg .showContourLabels = true → (∃ s ∈ c.cfg .sigmas, Crosses vals (enclosed cfg.sigma2d s)) →
      ∃ labels, contourLabels cfg c vals = .ok labels ∧
        List.Forall₂ (fun s (lt : ℝ × String) => lt.1 = enclosed cfg.sigma2d s ∧
          ∃ d v, Percentage lt.2 d v ∧ (lt.1 < 991 / 1000 → d = 0 ∧ |v - 100 * lt.1| ≤ 1 / 2) ∧
            (991 / 1000 ≤ lt.1 → d = 1 ∧ |v - 100 * lt.1| ≤ 1 / 20))
        ((c.cfg .sigmas).filter fun s => decide (0 < s)) labels) := by
  refine ⟨fun hs => by simp [contourLabels, hs], fun hs hx => ⟨levelLabels (getLevels cfg.sigma2d (c.cfg .sigmas)), ?_, ?_⟩⟩
  · rw [contourLabels, if_pos hs, conLevels_crosses]
    · rfl
    · rw [C52_level_is_mass cfg.sigma2d h]
      obtain ⟨s, h1, h2⟩ := hx
      exact ⟨_, List.mem_map_of_mem h1, h2⟩
  rw [C52_level_is_mass cfg.sigma2d h, levelLabels, List.filter_map]
  have hlev : ∀ s, 0 ≤ s → 0 ≤ enclosed cfg.sigma2d s ∧ (enclosed cfg.sigma2d s ≠ 0 ↔ 0 < s) := by
    intro s hs
    obtain ⟨h1, h2⟩ := C52_levels cfg.sigma2d (sigmas := [0, s]) (by simp [hs])
    rw [C52_level_is_mass cfg.sigma2d (by simp [hs])] at h1 h2
    simp only [List.map_cons, List.map_nil, List.pairwise_cons, List.mem_singleton, forall_eq, List.not_mem_nil, false_imp_iff,
      implies_true, List.Pairwise.nil, and_true] at h1 h2
    rcases h1 with _ | ⟨⟨h3, -⟩, h4⟩
    rcases h4 with _ | ⟨⟨h5, h6, -⟩, -⟩
    refine ⟨h6, fun hne => ?_, fun hpos => ?_⟩
    · exact lt_of_le_of_ne hs fun e => hne (h5 e.symm)
    · rw [h3 rfl] at h2
      exact (h2.1 hpos).ne'
  have hf : (c.cfg .sigmas).filter ((fun l => decide (l ≠ 0)) ∘ enclosed cfg.sigma2d) = (c.cfg .sigmas).filter fun s => decide (0 < s) := by
    refine List.filter_congr fun s hs => ?_
    simp only [Function.comp, (hlev s (h s hs)).2]
  rw [hf, List.map_map, List.forall₂_map_right_iff, List.forall₂_same]
  intro s hs
  obtain ⟨d, v, h1, h2, h3⟩ := levelLabel_spec (hlev s (h s (List.mem_of_mem_filter hs))).1
  exact ⟨rfl, d, v, h1, fun hl => ⟨(h2 hl).1, (h2 hl).2.2⟩, fun hl => ⟨(h3 hl).1, (h3 hl).2.2⟩⟩

/-- **C82** when no level crosses the surface: a single label, for the least value of the surface. -/
theorem C82_fallback (cfg : PlotConfig) (c : Chain ℝ) (vals : List (List ℝ)) (h : ∀ s ∈ c.cfg .sigmas, 0 ≤ s)
    (hs : c.cfg .showContourLabels = true) (hx : ∀ s ∈ c.cfg .sigmas, ¬ Crosses vals (enclosed cfg.sigma2d s))
    (hpos : ∀ r ∈ vals, ∀ v ∈ r, 0 < v) (hne : vals.flatten ≠ []) :
    ∃ m t d v, contourLabels cfg c vals = .ok [(m, t)] ∧ m ∈ vals.flatten ∧ (∀ v ∈ vals.flatten, m ≤ v) ∧
      Percentage t d v ∧ |v - 100 * m| ≤ 1 / 2 := by
  obtain ⟨m, -, hm, -⟩ := arr_exists hne
  have hmem := arrMin_ok_iff.1 hm
  have hm0 : 0 < m := by
    obtain ⟨r, hr, hv⟩ := List.mem_flatten.1 hmem.1
    exact hpos r hr m hv
  obtain ⟨d, v, h1, h2, h3⟩ := levelLabel_spec hm0.le
  refine ⟨m, levelLabel m, d, v, ?_, hmem.1, hmem.2, h1, ?_⟩
  · rw [contourLabels, if_pos hs, conLevels_else, hm]
    · simp only [bind, Except.bind, pure, Except.pure, levelLabels]
      rw [List.filter_cons_of_pos (by simpa using hm0.ne')]
      rfl
    · rw [C52_level_is_mass cfg.sigma2d h]
      simpa using hx
  · by_cases c : m < 991 / 1000
    · exact (h2 c).2.2
    · exact (h3 (not_lt.1 c)).2.2.trans (by norm_num)

/-- **C82**: a greater mass never has a smaller number, and contours with the same label differ by at most a percent (a tenth of a
percent from 99.1 percent on). -/
theorem C82_distinct_partial {l l' : ℝ} (h0 : 0 ≤ l) (hl : l ≤ l') :
    (∀ d d' v v', Percentage (levelLabel l) d v → Percentage (levelLabel l') d' v' → v ≤ v') ∧
    (levelLabel l = levelLabel l' → l' - l ≤ 1 / 100 ∧ (991 / 1000 ≤ l' → l' - l ≤ 1 / 1000)) := by
  obtain ⟨d, v, h1, h2, h3⟩ := levelLabel_spec h0
  obtain ⟨d', v', h1', h2', h3'⟩ := levelLabel_spec (h0.trans hl)
  constructor
  · intro e e' w w' hw hw'
    obtain ⟨-, rfl⟩ := percentage_unique h1 hw
    obtain ⟨-, rfl⟩ := percentage_unique h1' hw'
    by_cases c : l < 991 / 1000 <;> by_cases c' : l' < 991 / 1000
    · rw [(h2 c).2.1, (h2' c').2.1]
      exact_mod_cast halfEven_mono (by positivity) (by linarith)
    · rw [(h2 c).2.1, (h3' (not_lt.1 c')).2.1]
      have e1 : halfEven (l * 100) ≤ 99 := by
        have := abs_le.1 (halfEven_spec (x := l * 100) (by positivity))
        have h100 : (halfEven (l * 100) : ℝ) < 100 := by linarith [this.2]
        have : halfEven (l * 100) < 100 := by exact_mod_cast h100
        omega
      have e2 := halfEven_ge (x := l' * 1000) 991 (by push_cast; linarith [not_lt.1 c'])
      have e1' : (halfEven (l * 100) : ℝ) ≤ 99 := by exact_mod_cast e1
      have e2' : (991 : ℝ) ≤ halfEven (l' * 1000) := by exact_mod_cast e2
      linarith
    · linarith
    · rw [(h3 (not_lt.1 c)).2.1, (h3' (not_lt.1 c')).2.1]
      have : (halfEven (l * 1000) : ℝ) ≤ halfEven (l' * 1000) := by exact_mod_cast halfEven_mono (by positivity) (by linarith)
      linarith
  · intro he
    rw [← he] at h1'
    obtain ⟨rfl, rfl⟩ := percentage_unique h1 h1'
    by_cases c : l < 991 / 1000 <;> by_cases c' : l' < 991 / 1000
    · have := abs_le.1 (h2 c).2.2
      have := abs_le.1 (h2' c').2.2
      exact ⟨by linarith, fun hc => absurd c' (not_lt.2 hc)⟩
    · exfalso
      have h4 := (h2 c).1
      have h5 := (h3' (not_lt.1 c')).1
      omega
    · linarith
    · have := abs_le.1 (h3 (not_lt.1 c)).2.2
      have := abs_le.1 (h3' (not_lt.1 c')).2.2
      exact ⟨by linarith, fun _ => by linarith⟩

theorem levelLabel_hundred {l : ℝ} (h : 9996 / 10000 ≤ l) (h1 : l < 1) : levelLabel l = " 100.0% " := by
  have hneg : (Signed.of (l * 100)).neg = false := by
    simp only [Signed.of, decide_eq_false_iff_not, not_lt]
    linarith
  have habs : (Signed.of (l * 100)).abs = l * 100 := abs_of_nonneg (by linarith)
  have hh : halfEven (l * 100 * 10 ^ 1) = 1000 := by
    rw [pow_one]
    have h2 := abs_le.1 (halfEven_spec (x := l * 100 * 10) (by linarith))
    have h3 : (999 : ℝ) < halfEven (l * 100 * 10) := by linarith [h2.1]
    have h4 : (halfEven (l * 100 * 10) : ℝ) < 1001 := by linarith [h2.2]
    have h3' : 999 < halfEven (l * 100 * 10) := by exact_mod_cast h3
    have h4' : halfEven (l * 100 * 10) < 1001 := by exact_mod_cast h4
    omega
  have hl : ¬ l < 991 / 1000 := by linarith
  simp only [levelLabel, hl, if_false, Signed.text, hneg, habs, hh]
  decide

/-- Surfaces on which no cell has more than half of the mass have values up to one half, and values above every number below one. -/
theorem surface_values {cells : List (ℝ × ℝ)} (h : HighestDensity cells) (hne : cells ≠ []) (h0 : ∀ c ∈ cells, 0 < c.1)
    (hhalf : ∀ c ∈ cells, 2 * c.1 ≤ (cells.map Prod.fst).sum) :
    (∃ c ∈ cells, c.2 ≤ 1 / 2) ∧ ∀ p < 1, 0 ≤ p → ∃ c ∈ cells, p < c.2 := by
  have hS : 0 < (cells.map Prod.fst).sum := by
    obtain ⟨c, hc⟩ := List.exists_mem_of_ne_nil _ hne
    have := h0 c hc
    have := hhalf c hc
    linarith
  constructor
  · by_contra hc
    push Not at hc
    classical
    obtain ⟨c, hcm, hmax⟩ := Finset.exists_max_image cells.toFinset Prod.fst (by
      obtain ⟨c, hc⟩ := List.exists_mem_of_ne_nil _ hne
      exact ⟨c, List.mem_toFinset.2 hc⟩)
    rw [List.mem_toFinset] at hcm
    replace hmax := fun c' hc' => hmax c' (List.mem_toFinset.2 hc')
    have h1 := h.maximal (1 / 2) c hcm (hc c hcm) fun c' hc' _ => hmax c' hc'
    rw [List.filter_eq_nil_iff.2 (by intro a ha; simpa using hc a ha)] at h1
    have := hhalf c hcm
    simp only [List.map_nil, List.sum_nil] at h1
    linarith
  · intro p hp hp0
    by_contra hc
    push Not at hc
    have h1 := h.mass p hp0
    rw [List.filter_eq_self.2 (by intro a ha; simpa using hc a ha)] at h1
    nlinarith

/-- The unsmoothed histogram of the grid of two by three cells. -/
theorem step_counts : histogram2d (K := ℝ) [-1 / 2, 1 / 2, 3 / 2] [-1 / 2, 1 / 2, 3 / 2, 5 / 2]
    [0, 0, 1, 1] [0, 1, 0, 2] [1, 1, 1, 1] = .ok [[1, 1, 0], [1, 0, 1]] := by
  unfold histogram2d
  norm_num [ensure, bind, Except.bind, pure, Except.pure, List.range_succ, cellMass, inBin]

/-- A grid chain with four points of equal weight in two by three cells, unsmoothed, with contours at `sigmas`: its surface has
values up to one half and values above every number below one. -/
theorem labelled_chain {lib : Lib} (hn : NearOk lib.near) (ha : ArgsortOk lib.argsort) (cfg : PlotConfig) {sigmas : List ℝ}
    (h0 : ∀ s ∈ sigmas, 0 ≤ s) (hi : sigmas.Pairwise (· < ·)) (h2 : 2 ≤ sigmas.length) :
    ∃ c : Chain ℝ, (∃ args, Chain.make args = .ok c) ∧ c.cfg .sigmas = sigmas ∧ c.cfg .showContourLabels = true ∧
      ∃ xs ys vals levels, plotContour lib cfg c "x" "y" = .ok (.contour "step" "x" "y" xs ys vals levels) ∧
        ∀ p, 1 / 2 < p → p < 1 → Crosses vals p := by
  obtain ⟨c, hc, hcs, hw, -, hp, hg, -, hname, hcfg⟩ :=
    plain_chain_cfg (K := ℝ) true [⟨.sigmas, sigmas⟩, ⟨.showContourLabels, true⟩] rfl
      (by change (0 : ℝ) ≤ 6827 / 10000 ∧ (6827 / 10000 : ℝ) ≤ 1; constructor <;> norm_num)
      (by change (1 : ℝ) ≤ 10; norm_num) rfl rfl (by intro h; cases h) stepFrame stepFrame_wf
      (by simp [stepFrame]) (w := [1, 1, 1, 1]) rfl (by simp) "step" 1 le_rfl (one_dvd _)
  have hsig : (c.cfg .sigmas : List ℝ) = sigmas := by rw [hcfg]; rfl
  have hlab : c.cfg .showContourLabels = true := by rw [hcfg]; rfl
  have hk : c.cfg .kde = (0 : ℝ) := by rw [hcfg]; rfl
  have hal : (c.cfg .shadeAlpha : Flt ℝ) = .fin (1 / 2) := by rw [hcfg]; rfl
  have hgr : (c.cfg .shadeGradient : ℝ) = 1 := by rw [hcfg]; rfl
  have hco : (c.cfg .color : Option String) = none := by rw [hcfg]; rfl
  have hwf : c.samples.WF := by rw [hcs]; exact stepFrame_wf
  have hwt : c.weights = .ok [1, 1, 1, 1] := by unfold Chain.weights; rw [hcs, hw]; rfl
  have hx : c.samples.get "x" = .ok [0, 0, 1, 1] := by rw [hcs]; rfl
  have hy : c.samples.get "y" = .ok [0, 1, 0, 2] := by rw [hcs]; rfl
  have hs : c.smoothValue = 0 := by unfold Chain.smoothValue; rw [hcfg, hg]; rfl
  have hr : smoothedHistogram2d lib.near c "x" "y" = .ok ⟨[[1, 1, 0], [1, 0, 1]], midpoints [-1 / 2, 1 / 2, 3 / 2],
      midpoints [-1 / 2, 1 / 2, 3 / 2, 5 / 2]⟩ :=
    (smoothedHistogram2d_ok_iff hk).2 ⟨_, _, _, _, _, _, _, hx, hy, hwt, step_bins hg, step_counts,
      powRows_ok_iff.2 ⟨.inl (by rw [hp]; norm_num), rfl⟩, by rw [hs]; exact if_pos rfl, by rw [hp]; simp⟩
  obtain ⟨call, hcall⟩ := C88_drawn_partial (cfg := cfg) hn ha hwf hwt (by simp) hr (by simp [midpoints_length])
    (by simp [midpoints_length]) (by rw [hsig]; exact h0) (by rw [hsig]; exact hi)
    (by rw [hsig]; intro h; simp [h] at h2) (.inr ⟨by rw [hsig]; exact h2, 1 / 2, by norm_num, hal⟩) (by rw [hco]; simp)
    (by rw [hgr]; norm_num) (by rw [hgr]; norm_num)
  obtain ⟨r, vals, levels, hr', rfl, hv, hd, -, -⟩ := C79_contour hn ha hwf hwt (by simp) hcall
  rw [hr] at hr'
  cases hr'
  have hn' : c.name = "step" := by rw [hname]
  rw [hn'] at hcall
  refine ⟨c, ⟨_, hc⟩, hsig, hlab, _, _, vals, levels, hcall, fun p hp1 hp2 => ?_⟩
  have hcells : surfaceCells 2 3 [[1, 1, 0], [1, 0, 1]] vals = [(1, cell vals 0 0), (1, cell vals 1 0), (1 / 10 ^ 16, cell vals 2 0),
      (1, cell vals 0 1), (1 / 10 ^ 16, cell vals 1 1), (1, cell vals 2 1)] := by
    simp [surfaceCells, List.range_succ, cell]
  simp only [midpoints_length] at hd hv
  change HighestDensity (surfaceCells 2 3 _ _) at hd
  change Rect 3 2 vals at hv
  have hmem : ∀ q ∈ surfaceCells 2 3 [[1, 1, 0], [1, 0, 1]] vals, ∃ row ∈ vals, q.2 ∈ row := by
    intro q hq
    simp only [surfaceCells, List.mem_flatMap, List.mem_map, List.mem_range] at hq
    obtain ⟨i, hi, j, hj, rfl⟩ := hq
    have hj' : j < vals.length := by rw [hv.rows]; exact hj
    have hi' : i < vals[j].length := by rw [hv.cols _ (List.getElem_mem hj')]; exact hi
    refine ⟨vals[j], List.getElem_mem hj', ?_⟩
    change cell vals j i ∈ vals[j]
    rw [cell, List.getD_eq_getElem?_getD (l := vals), List.getElem?_eq_getElem hj', Option.getD_some,
      List.getD_eq_getElem?_getD, List.getElem?_eq_getElem hi', Option.getD_some]
    exact List.getElem_mem hi'
  obtain ⟨⟨q, hq, hq1⟩, hbig⟩ := surface_values hd (by rw [hcells]; simp) (by rw [hcells]; simp)
    (by rw [hcells]; norm_num)
  obtain ⟨q', hq', hq2⟩ := hbig p hp2 (by linarith)
  obtain ⟨row, hrow, hv1⟩ := hmem q hq
  obtain ⟨row', hrow', hv2⟩ := hmem q' hq'
  exact ⟨⟨row, hrow, _, hv1, by linarith⟩, row', hrow', _, hv2, hq2⟩

/-- **C82** (violation). The contours at 5 and 6 sigma enclose different masses below one, but both are labelled `100.0%`. -/
theorem C82_violated {lib : Lib} (hn : NearOk lib.near) (ha : ArgsortOk lib.argsort) :
    ∃ c : Chain ℝ, (∃ args, Chain.make args = .ok c) ∧ c.cfg .sigmas = [5, 6] ∧
      ∃ xs ys vals levels, plotContour lib { sigma2d := true } c "x" "y" = .ok (.contour "step" "x" "y" xs ys vals levels) ∧
        ∃ l l', l < l' ∧ l' < 1 ∧ contourLabels { sigma2d := true } c vals = .ok [(l, " 100.0% "), (l', " 100.0% ")] := by
  obtain ⟨c, h1, hs, hl, xs, ys, vals, levels, hcall, hx⟩ := labelled_chain hn ha { sigma2d := true } (sigmas := [5, 6])
    (by simp) (by norm_num) (by simp)
  have he : ∀ x : ℝ, 12 ≤ x → Real.exp (-x) < 1 / 10000 := by
    intro x hx
    have h2 : (2 : ℝ) ^ 14 ≤ Real.exp x := by
      have : (27 / 10 : ℝ) ≤ Real.exp 1 := by have := Real.exp_one_gt_d9; linarith
      calc (2 : ℝ) ^ 14 ≤ (27 / 10) ^ 12 := by norm_num
        _ ≤ Real.exp 1 ^ 12 := pow_le_pow_left₀ (by norm_num) this 12
        _ = Real.exp 12 := by rw [← Real.exp_nat_mul]; norm_num
        _ ≤ Real.exp x := Real.exp_le_exp.2 hx
    rw [Real.exp_neg, inv_lt_comm₀ (Real.exp_pos x) (by norm_num)]
    norm_num at h2 ⊢
    linarith
  have e5 := he (25 / 2) (by norm_num)
  have e6 := he 18 (by norm_num)
  have hlt : Real.exp (-18) < Real.exp (-(25 / 2)) := Real.exp_lt_exp.2 (by norm_num)
  have p6 := Real.exp_pos (-18)
  refine ⟨c, h1, hs, xs, ys, vals, levels, hcall, 1 - Real.exp (-(25 / 2)), 1 - Real.exp (-18), by linarith, by linarith, ?_⟩
  have hlev : getLevels true [5, 6] = [1 - Real.exp (-(25 / 2)), 1 - Real.exp (-18)] := by
    simp only [getLevels, if_true, List.map_cons, List.map_nil]
    norm_num
  rw [contourLabels, if_pos hl, hs, hlev, conLevels_crosses ⟨_, List.mem_cons_self, hx _ (by linarith) (by linarith)⟩]
  simp only [bind, Except.bind, pure, Except.pure]
  rw [levelLabels, List.filter_cons_of_pos (by simp; linarith), List.filter_cons_of_pos (by simp; linarith)]
  simp only [List.filter_nil, List.map_cons, List.map_nil]
  rw [levelLabel_hundred (by linarith) (by linarith), levelLabel_hundred (by linarith) (by linarith)]

/-- The contours at 0, 2 and 3 sigma have two labels. -/
example {lib : Lib} (hn : NearOk lib.near) (ha : ArgsortOk lib.argsort) : ∃ c : Chain ℝ, c.cfg .sigmas = [0, 2, 3] ∧
    ∃ xs ys vals levels labels, plotContour lib { sigma2d := true } c "x" "y" = .ok (.contour "step" "x" "y" xs ys vals levels) ∧
      contourLabels { sigma2d := true } c vals = .ok labels ∧ labels.length = 2 := by
  obtain ⟨c, h1, hs, hl, xs, ys, vals, levels, hcall, hx⟩ := labelled_chain hn ha { sigma2d := true } (sigmas := [0, 2, 3])
    (by simp) (by norm_num) (by simp)
  have he : Real.exp (-(1 / 2) * 2 ^ 2) < 1 / 2 := by
    have := Real.exp_one_gt_d9
    have h2 : (2 : ℝ) < Real.exp 2 := (by linarith : (2 : ℝ) < Real.exp 1).trans (Real.exp_lt_exp.2 (by norm_num))
    rw [show (-(1 / 2) * 2 ^ 2 : ℝ) = -2 by norm_num, Real.exp_neg, inv_lt_comm₀ (Real.exp_pos _) (by norm_num)]
    norm_num
    exact h2
  have hp := Real.exp_pos (-(1 / 2) * 2 ^ 2)
  have h2 : enclosed true 2 = 1 - Real.exp (-(1 / 2) * 2 ^ 2) := by
    have := C52_level_is_mass true (sigmas := [2]) (by simp)
    simp only [getLevels, if_true, List.map_cons, List.map_nil, List.cons.injEq, and_true] at this
    exact this.symm
  obtain ⟨labels, h3, h4⟩ := (C82_labels_partial { sigma2d := true } c vals (by rw [hs]; simp)).2 hl
    ⟨2, by rw [hs]; simp, by rw [h2]; exact hx _ (by linarith) (by linarith)⟩
  refine ⟨c, hs, xs, ys, vals, levels, labels, hcall, h3, ?_⟩
  rw [← h4.length_eq, hs]
  simp

/-- A surface with one value is crossed by no level. -/
example : ∃ c : Chain ℝ, ∀ s ∈ c.cfg .sigmas, (0 : ℝ) ≤ s ∧ ¬ Crosses [[1, 1], [1, 1]] (enclosed true s) := by
  obtain ⟨c, h1, -, -, -, -, -, -, -, h9⟩ := plain_chain_cfg (K := ℝ) false [⟨.sigmas, [0, 1, 2]⟩, ⟨.showContourLabels, true⟩] rfl
    (by change (0 : ℝ) ≤ 6827 / 10000 ∧ (6827 / 10000 : ℝ) ≤ 1; constructor <;> norm_num)
    (by change (1 : ℝ) ≤ 10; norm_num) rfl rfl (by intro h; cases h) ⟨[.int 0], [("a", [0]), ("weight", [1])]⟩
    ⟨by simp, by simp⟩ (by simp) (w := [1]) rfl (by simp) "one" 1 le_rfl (one_dvd _)
  have hs : c.cfg .sigmas = [0, 1, 2] := by rw [h9]; rfl
  refine ⟨c, fun s hm => ⟨?_, ?_⟩⟩
  · rw [hs] at hm
    revert hm
    simp only [List.mem_cons, List.not_mem_nil, or_false]
    rintro (rfl | rfl | rfl) <;> norm_num
  · rintro ⟨⟨r, hr, v, hv, h1⟩, r', hr', v', hv', h2⟩
    simp only [List.mem_cons, List.not_mem_nil, or_false, or_self] at hr hr'
    subst hr hr'
    simp only [List.mem_cons, List.not_mem_nil, or_false, or_self] at hv hv'
    subst hv hv'
    linarith

end CC
