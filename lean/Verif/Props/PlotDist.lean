import Verif.Model.PlotDist
import Verif.Props.Modes
import Verif.Props.ContourLabels
import Verif.Props.Degenerate

/-! # C81: `plot_dist` shows what the histogram of `plot` shows -/

namespace CC
open Spec

/-- The intervals shaded by calls. -/
def Spec.shades (calls : List Call) : List (ℝ × ℝ) := calls.filterMap fun
  | .shade _ _ _ lo hi => some (lo, hi)
  | _ => none

theorem onCurve_scale {xs ys : List ℝ} {x y : ℝ} (h : OnCurve (xs.zip ys) x y) (k : ℝ) :
    OnCurve (xs.zip (ys.map (· * k))) x (y * k) := by
  have hz : xs.zip (ys.map (· * k)) = (xs.zip ys).map fun p => (p.1, p.2 * k) := by
    rw [List.zip_map_right]
    rfl
  rw [hz]
  rcases h with h | ⟨pre, p, q, post, t, h, h0, h1, hx, hy⟩
  · exact Or.inl (List.mem_map.2 ⟨_, h, rfl⟩)
  · right
    refine ⟨pre.map fun p => (p.1, p.2 * k), (p.1, p.2 * k), (q.1, q.2 * k), post.map fun p => (p.1, p.2 * k), t, ?_, h0, h1, hx, ?_⟩
    · rw [h]
      simp
    · rw [hy]
      ring

theorem forall₂_getElem? {α β : Type} {R : α → β → Prop} {l : List α} {l' : List β} (h : List.Forall₂ R l l') {k : Nat} {x : α} {y : β}
    (hx : l[k]? = some x) (hy : l'[k]? = some y) : R x y := by
  induction h generalizing k with
  | nil => simp at hx
  | cons h _ ih =>
    cases k with
    | zero =>
      simp only [List.getElem?_cons_zero, Option.some.injEq] at hx hy
      subst hx hy
      exact h
    | succ k => exact ih (by simpa using hx) (by simpa using hy)

theorem increasing_minmax {l : List ℝ} (h : l.Pairwise (· < ·)) {a z : ℝ} (ha : l.head? = some a) (hz : l.getLast? = some z) :
    arrMin l = .ok a ∧ arrMax l = .ok z := by
  have hm : ∀ x ∈ l, a ≤ x ∧ x ≤ z := by
    intro x hx
    obtain ⟨k, hk, rfl⟩ := List.getElem_of_mem hx
    rw [List.pairwise_iff_getElem] at h
    rw [List.head?_eq_getElem?] at ha
    rw [List.getLast?_eq_getElem?] at hz
    obtain ⟨h0, rfl⟩ := List.getElem?_eq_some_iff.1 ha
    obtain ⟨h1, rfl⟩ := List.getElem?_eq_some_iff.1 hz
    constructor
    · rcases Nat.eq_zero_or_pos k with rfl | hk0
      · exact le_rfl
      · exact (h 0 k h0 hk hk0).le
    · rcases Nat.lt_or_ge k (l.length - 1) with hk1 | hk1
      · exact (h k _ hk h1 hk1).le
      · obtain rfl : k = l.length - 1 := by omega
        exact le_rfl
  exact ⟨arrMin_ok_iff.2 ⟨List.mem_of_mem_head? ha, fun x hx => (hm x hx).1⟩,
    arrMax_ok_iff.2 ⟨List.mem_of_getLast? hz, fun x hx => (hm x hx).2⟩⟩

/-- The curve of `plot_dist` passes through all points of the histogram of `plot`, and both have the same ends. -/
theorem distCurve_same {lib : Lib} {c : Chain ℝ} {p : String} (hk : c.cfg .kde = (0 : ℝ))
    (hg : c.grid = false ∨ c.smoothValue = 0) {w : List ℝ} (hw : c.weights = .ok w) (hpos : ∀ x ∈ w, 0 ≤ x) {xs ys : List ℝ}
    (h : barData lib c p = .ok (xs, ys)) :
    ∃ xs' ys', distCurve lib c p = .ok (xs', ys') ∧ xs'.head? = xs.head? ∧ xs'.getLast? = xs.getLast? ∧
      xs.Pairwise (· < ·) ∧ xs'.Pairwise (· < ·) ∧ xs.length = ys.length ∧ xs'.length = ys'.length ∧
      (∀ (k : Nat) x y, xs[k]? = some x → ys[k]? = some y → OnCurve (xs'.zip ys') x y) ∧
      (c.smoothValue = 0 → xs' = xs ∧ ys' = ys) := by
  unfold barData at h
  unfold distCurve
  by_cases hs : c.smoothValue = 0
  · rw [if_neg (by rw [hk]; simp [hs])] at h
    simp only [bind_ok_iff] at h
    obtain ⟨data, hd, w', hw', bins, hb, h0, hh0, h1, hh1, h⟩ := h
    cases h
    obtain rfl : w = w' := Except.ok.inj (hw.symm.trans hw')
    obtain ⟨i1, l1, n1⟩ := histDensity_ok hpos hh0
    obtain ⟨l2, -⟩ := powAll_ok n1 hh1
    have hlen : (midpoints bins).length = ys.length := by rw [midpoints_length, l2, l1]
    refine ⟨midpoints bins, ys, ?_, rfl, rfl, midpoints_increasing i1, midpoints_increasing i1, hlen, hlen, ?_, fun _ => ⟨rfl, rfl⟩⟩
    · simp only [hd, hw, hk, hs, ne_eq, not_true_eq_false, if_false, distPlain, hb, hh0, hh1, bind, Except.bind, pure, Except.pure]
    · intro k x y hx hy
      left
      refine List.mem_of_getElem? (i := k) ?_
      rw [List.getElem?_zip_eq_some]
      exact ⟨hx, hy⟩
  · have hg' : c.grid = false := hg.resolve_right hs
    rw [if_pos (.inl hs)] at h
    simp only [bind_ok_iff] at h
    obtain ⟨m, hm, h⟩ := h
    cases h
    simp only [smoothedHistogram, bind_ok_iff, ensure_ok_iff, pure_ok_iff] at hm
    obtain ⟨data, hd, w', hw', bins, hb, h0, hh0, h1, hh1, ab, hab, -, h2, ys, hys, cs, -, rfl⟩ := hm
    obtain rfl : w = w' := Except.ok.inj (hw.symm.trans hw')
    simp only [marginalYs, Option.getD_none, hk, ne_eq, not_true_eq_false, decide_false, Bool.false_eq_true, if_false, bind_ok_iff] at hys
    obtain ⟨h3, hh3, hys⟩ := hys
    obtain ⟨i1, l1, n1⟩ := histDensity_ok hpos hh0
    obtain ⟨l2, n2⟩ := powAll_ok n1 hh1
    obtain ⟨l3, -⟩ := smoothHist_ok n2 hh3
    have hmid := midpoints_increasing i1
    obtain ⟨e1, e2⟩ := endpoints_ok hab
    have hlt : ab.1 < ab.2 := head_lt_last hmid (of_decide_eq_true h2) e1 e2
    have hdb : distBins c data w = .ok bins := by
      rw [marginalBins, hg'] at hb
      exact hb
    have hF := mapM_ok_iff.1 hys
    refine ⟨midpoints bins, h3, ?_, ?_, ?_, linspace_increasing hlt two_le_gridSize, hmid, hF.length_eq, ?_, ?_, fun h0 => absurd h0 hs⟩
    · simp only [hd, hw, hk, hs, ne_eq, not_true_eq_false, not_false_eq_true, if_false, if_true, hdb, distSmoothed, hh0, hh1, hh3, bind,
        Except.bind, pure, Except.pure]
    · rw [e1, linspace_head (by have := two_le_gridSize; omega)]
    · rw [e2, linspace_last two_le_gridSize]
    · rw [midpoints_length, l3, l2, l1]
    · intro k x y hx hy
      have hr := forall₂_getElem? hF hx hy
      obtain ⟨a, b, ha, hb', hax, hxb, rfl⟩ := interp1d_ok_iff.1 hr
      have hlen : (midpoints bins).length = h3.length := by rw [midpoints_length, l3, l2, l1]
      have hp : ((midpoints bins).zip h3).map Prod.fst = midpoints bins := List.map_fst_zip hlen.le
      obtain ⟨P, hP, hP1⟩ : ∃ P, ((midpoints bins).zip h3).head? = some P ∧ P.1 = a := by
        have : (((midpoints bins).zip h3).map Prod.fst).head? = some a := by rw [hp, ha]
        rw [List.head?_map] at this
        simpa using this
      obtain ⟨L, hL, hL1⟩ : ∃ L, ((midpoints bins).zip h3).getLast? = some L ∧ L.1 = b := by
        have : (((midpoints bins).zip h3).map Prod.fst).getLast? = some b := by rw [hp, hb']
        rw [List.getLast?_map] at this
        simpa using this
      exact polyline_onCurve hP hL (by rw [hP1]; exact hax) (by rw [hL1]; exact hxb)

theorem numberText_ne (pm : Bool) (d : Nat) (c u l : Signed ℝ) : numberText pm d c u l ≠ "" := by
  unfold numberText
  intro he
  have := congrArg String.length he
  split at this <;> simp at this

theorem ite_ne_empty {p : Prop} [Decidable p] {a b : String} (ha : a ≠ "") (hb : b ≠ "") : (if p then a else b) ≠ "" := by
  split
  · exact ha
  · exact hb

theorem formatLimits_ne {l c u : ℝ} {pm : Bool} {t : String} (h : formatLimits l c u pm = .ok t) : t ≠ "" := by
  unfold formatLimits at h
  split at h
  · cases h
  · replace h := Except.ok.inj h
    rw [← h]
    exact ite_ne_empty (by
      intro he
      have := congrArg String.length he
      simp at this) (numberText_ne _ _ _ _ _)

/-- **C81, partial**: `plot_dist` shows what the histogram of `plot` shows. Its curve passes through all points of the histogram and
ends where it ends (without smoothing the two are the same); the same interval is shaded if both shade; the title has the same text,
after the name of the column. Missing: KDE (`C50_plot_dist_violated`), multimodal chains, smoothed grids (`C81_violated_grid`) and
configured labels (`C81_violated_label`). -/
theorem C81_same_partial {lib : Lib} {cfg : PlotConfig} {c : Chain ℝ} {p : String} (hk : c.cfg .kde = (0 : ℝ))
    (hg : c.grid = false ∨ c.smoothValue = 0) (hm : c.cfg .multimodal = false) (hb : c.cfg .barShade = true) {w : List ℝ}
    (hw : c.weights = .ok w) (hpos : ∀ x ∈ w, 0 ≤ x)
    (hal : c.filled → ∃ a, (c.cfg .shadeAlpha : Flt ℝ) = .fin a ∧ 0 ≤ a * (1 / 5 + 4 / 5 * (c.cfg .shadeGradient : ℝ)) ∧
      a * (1 / 5 + 4 / 5 * (c.cfg .shadeGradient : ℝ)) ≤ 1)
    {calls : List Call} {top : ℝ} (h : plotBars lib cfg p c false true = .ok (calls, top)) :
    ∃ d b, plotDist lib c p true = .ok d ∧ parameterSummary lib.kde c p = .ok b ∧
      (∃ xs ys rest, calls = .marginal c.name p false xs ys :: rest ∧ d.xs.head? = xs.head? ∧ d.xs.getLast? = xs.getLast? ∧
        xs.length = ys.length ∧ (∀ (k : Nat) x y, xs[k]? = some x → ys[k]? = some y → OnCurve (d.xs.zip d.ys) x y) ∧
        (c.smoothValue = 0 → d.xs = xs ∧ d.ys = ys)) ∧
      (c.filled → (d.shade.map fun s => (s.1, s.2.1)).toList = shades calls) ∧ (¬ c.filled → d.shade = none) ∧
      (∀ l x u, b = ⟨some l, some x, some u⟩ → ∃ label text, Bare (nameOf cfg.labels p) label ∧
        titles calls = ["$" ++ (if label = "" then "" else label ++ " = ") ++ text ++ "$"] ∧
        d.title = some (.text ("$" ++ p ++ " = " ++ text ++ "$"))) := by
  simp only [plotBars, bind_ok_iff, pure_ok_iff] at h
  obtain ⟨⟨xs, ys⟩, hbar, hh, hhh, top', htop, sh, hsh, h⟩ := h
  cases h
  obtain ⟨xs', ys', hcur, e1, e2, i1, i2, l1, l2, hon, hsame⟩ := distCurve_same hk hg hw hpos hbar
  rw [barShadeIf, if_pos hb, barShade] at hsh
  simp only [bind_ok_iff] at hsh
  obtain ⟨b, hbd, hsh⟩ := hsh
  -- the title
  have htitle : ∀ tl, barTitle cfg p (.single b) true = .ok tl → ∃ dt, distTitle p b = .ok dt ∧
      ∀ l x u, b = ⟨some l, some x, some u⟩ → ∃ label text, Bare (nameOf cfg.labels p) label ∧
        tl = "$" ++ (if label = "" then "" else label ++ " = ") ++ text ++ "$" ∧ tl ≠ "" ∧
        dt = .text ("$" ++ p ++ " = " ++ text ++ "$") := by
    intro tl htl
    rw [barTitle, if_pos rfl] at htl
    obtain ⟨bl, bc, bu⟩ := b
    have hnone : ∀ b : Bound ℝ, parameterText (some (.single b)) false none = .ok "" → ∃ dt, distTitle p b = .ok dt := by
      intro b hb
      simp only [distTitle, hb, bind, Except.bind, ne_eq, not_true_eq_false, if_false]
      cases b.center <;> exact ⟨_, rfl⟩
    cases bl with
    | none =>
      obtain ⟨dt, hdt⟩ := hnone ⟨none, bc, bu⟩ rfl
      exact ⟨dt, hdt, by intro l x u e; cases e⟩
    | some l =>
      cases bc with
      | none =>
        obtain ⟨dt, hdt⟩ := hnone ⟨some l, none, bu⟩ rfl
        exact ⟨dt, hdt, by intro l x u e; cases e⟩
      | some x =>
        cases bu with
        | none =>
          obtain ⟨dt, hdt⟩ := hnone ⟨some l, some x, none⟩ rfl
          exact ⟨dt, hdt, by intro l x u e; cases e⟩
        | some u =>
          simp only [parameterText, singleText, bind_ok_iff, pure_ok_iff, Option.getD_some, if_true] at htl
          obtain ⟨text, ht, rfl⟩ := htl
          refine ⟨.text (dollars (p ++ " = " ++ text)), ?_, ?_⟩
          · have : parameterText (some (.single (⟨some l, some x, some u⟩ : Bound ℝ))) false none = .ok text := by
              simp only [parameterText, singleText, ht, bind, Except.bind, pure, Except.pure, Option.getD_none, ne_eq, not_true_eq_false,
                if_false, Bool.false_eq_true]
            simp only [distTitle, this, bind, Except.bind, pure, Except.pure, ne_eq, formatLimits_ne ht, not_false_eq_true, if_true]
          · rintro l' x' u' -
            refine ⟨_, text, by rw [← getLabel_nameOf]; exact stripDollars_bare _, ?_, ?_, ?_⟩
            · unfold dollars
              by_cases hl : stripDollars (getLabel cfg.labels p) = ""
              · simp [hl]
              · simp [hl, String.append_assoc]
            · intro he
              have := congrArg String.length he
              simp [dollars] at this
            · simp [dollars, String.append_assoc]
  -- the shading
  obtain ⟨a, ha⟩ : ∃ a, xs.head? = some a := by
    cases hx : xs.head? with
    | none =>
      rw [List.head?_eq_none_iff] at hx
      subst hx
      obtain rfl : ys = [] := List.length_eq_zero_iff.1 l1.symm
      cases htop
    | some a => exact ⟨a, rfl⟩
  obtain ⟨z, hz⟩ : ∃ z, xs.getLast? = some z := by
    cases hx : xs.getLast? with
    | none =>
      rw [List.getLast?_eq_none_iff] at hx
      subst hx
      cases ha
    | some z => exact ⟨z, rfl⟩
  obtain ⟨m1, m2⟩ := increasing_minmax i1 ha hz
  obtain ⟨m1', m2'⟩ := increasing_minmax i2 (e1.trans ha) (e2.trans hz)
  have hcurve : ∃ xs₁ ys₁ rest, (Call.marginal c.name p false xs (ys.map (· * hh)) :: sh) = .marginal c.name p false xs₁ ys₁ :: rest ∧
      xs'.head? = xs₁.head? ∧ xs'.getLast? = xs₁.getLast? ∧ xs₁.length = ys₁.length ∧
      (∀ (k : Nat) x y, xs₁[k]? = some x → ys₁[k]? = some y → OnCurve (xs'.zip (ys'.map (· * hh))) x y) ∧
      (c.smoothValue = 0 → xs' = xs₁ ∧ ys'.map (· * hh) = ys₁) := by
    refine ⟨xs, _, sh, rfl, e1, e2, by simpa using l1, ?_, fun hs => ?_⟩
    · intro k x y hx hy
      rw [List.getElem?_map, Option.map_eq_some_iff] at hy
      obtain ⟨y', hy', rfl⟩ := hy
      exact onCurve_scale (hon k x y' hx hy') hh
    · obtain ⟨rfl, rfl⟩ := hsame hs
      exact ⟨rfl, rfl⟩
  have hplot : ∀ shade dt, distShade c b xs' = .ok shade → distTitle p b = .ok dt →
      plotDist lib c p true = .ok ⟨xs', ys'.map (· * hh), shade, some dt⟩ := by
    intro shade dt h1 h2
    simp only [plotDist, hcur, hhh, distDecorations, or_true, if_true, hbd, h1, distTitleIf, h2, bind, Except.bind, pure, Except.pure]
  have hsc : ∀ l, titles (Call.marginal c.name p false xs (ys.map (· * hh)) :: l) = titles l := fun l => titles_append [_] l
  have hshc : ∀ l, shades (Call.marginal c.name p false xs (ys.map (· * hh)) :: l) = shades l := fun _ => rfl
  rw [hsc, hshc]
  cases hlo : b.lower with
  | none =>
    have hps : parameterText (some (.single b)) false none = .ok "" := by
      obtain ⟨bl, bc, bu⟩ := b
      cases hlo
      rfl
    obtain ⟨dt, hdt⟩ : ∃ dt, distTitle p b = .ok dt := by
      simp only [distTitle, hps, bind, Except.bind, ne_eq, not_true_eq_false, if_false]
      cases b.center <;> exact ⟨_, rfl⟩
    simp only [hlo, pure_ok_iff] at hsh
    subst hsh
    have hsd : distShade c b xs' = .ok none := by
      unfold distShade
      split
      · simp only [distInterval, hlo]
      · rfl
    refine ⟨_, b, hplot _ _ hsd hdt, hbd, hcurve, fun _ => rfl, fun _ => rfl, ?_⟩
    rintro l x u rfl
    cases hlo
  | some lo =>
    cases hup : b.upper with
    | none =>
      have hps : parameterText (some (.single b)) false none = .ok "" := by
        obtain ⟨bl, bc, bu⟩ := b
        cases hlo
        cases hup
        cases bc <;> rfl
      obtain ⟨dt, hdt⟩ : ∃ dt, distTitle p b = .ok dt := by
        simp only [distTitle, hps, bind, Except.bind, ne_eq, not_true_eq_false, if_false]
        cases b.center <;> exact ⟨_, rfl⟩
      simp only [hlo, hup, pure_ok_iff] at hsh
      subst hsh
      have hsd : distShade c b xs' = .ok none := by
        unfold distShade
        split
        · simp only [distInterval, hlo, hup]
        · rfl
      refine ⟨_, b, hplot _ _ hsd hdt, hbd, hcurve, fun _ => rfl, fun _ => rfl, ?_⟩
      rintro l x u rfl
      cases hup
    | some hi =>
      simp only [hlo, hup, shadeBounds, hm, Bool.false_eq_true, if_false, m1, m2, bind, Except.bind, pure, Except.pure,
        List.all_cons, List.all_nil, Bool.and_true] at hsh
      split at hsh
      · cases hsh
      rename_i hen
      split at hsh
      · cases hsh
      rename_i tl htl
      obtain ⟨dt, hdt, htx⟩ := htitle tl htl
      replace hsh := Except.ok.inj hsh
      subst hsh
      obtain ⟨shade, hsd, hsd1, hsd2⟩ : ∃ shade, distShade c b xs' = .ok shade ∧
          (c.filled → (shade.map fun s => (s.1, s.2.1)).toList = [(max lo a, min hi z)]) ∧ (¬ c.filled → shade = none) := by
        unfold distShade
        by_cases hf : c.filled
        · obtain ⟨al, h1, h2, h3⟩ := hal hf
          rw [if_pos hf]
          have hd : distAlpha c = .ok (al * (1 / 5 + 4 / 5 * (c.cfg .shadeGradient : ℝ))) := by
            simp only [distAlpha, h1, h2, h3, decide_true, Bool.and_self, ensure, if_true, bind, Except.bind, pure, Except.pure]
          refine ⟨some (max lo a, min hi z, al * (1 / 5 + 4 / 5 * (c.cfg .shadeGradient : ℝ))), ?_, fun _ => rfl, fun h => absurd hf h⟩
          simp only [distInterval, hlo, hup, m1', m2', hd, bind, Except.bind, pure, Except.pure]
          rw [hen]
        · rw [if_neg hf]
          exact ⟨none, rfl, fun h => absurd h hf, fun _ => rfl⟩
      refine ⟨_, b, hplot _ _ hsd hdt, hbd, hcurve, ?_, hsd2, ?_⟩
      · intro hf
        rw [hsd1 hf]
        split <;> rfl
      · intro l x u e
        obtain ⟨label, text, h1, h2, h3, h4⟩ := htx l x u e
        refine ⟨label, text, h1, ?_, by rw [h4]⟩
        rw [if_neg h3, ← h2]
        rfl

/-- The two-point grid of C85, with its interval shaded, as drawn with the label `label`. -/
theorem two_labelled {c : Chain ℝ} (h2 : TwoPoint c false 1 2) {lib : Lib} (hk : KdeOk lib.kde) {cfg : PlotConfig} {label : String}
    (hlab : stripDollars (getLabel cfg.labels "a") = label) (hne : label ≠ "") :
    ∃ l x u text top, parameterSummary lib.kde c "a" = .ok ⟨some l, some x, some u⟩ ∧ plotBars lib cfg "a" c false true =
      .ok ([.marginal "two" "a" false [0, 1] [1 / (1 + 2), 2 / (1 + 2)], .shade "two" "a" false l u,
        .title (dollars (label ++ " = " ++ text))], top) ∧ formatLimits l x u true = .ok text := by
  obtain ⟨m, hm, hv, hx, hy⟩ := h2.marginal one_pos two_pos hk true
  obtain ⟨l, x, u, hh, hl0, hlx, hu1, hxu⟩ := two_hdi hv hx hy
  have ha := h2.area
  have hps : parameterSummary lib.kde c "a" = .ok ⟨some l, some x, some u⟩ := by
    simp only [parameterSummary, h2.hdi, hm, ha, bind, Except.bind, hh]
  obtain ⟨t, ht, htne⟩ := single_text (l := l) (c := x) (u := u) (by
    rintro ⟨-, h0, h0'⟩
    linarith) (some label)
  have ht' := ht
  simp only [parameterText, singleText, bind_ok_iff, pure_ok_iff, Option.getD_some, if_true, ne_eq, hne, not_false_eq_true] at ht'
  obtain ⟨text, htx, rfl⟩ := ht'
  have hlu : l ≤ u := by linarith
  have hshade : barShade lib cfg c "a" [0, 1] false true =
      .ok [.shade "two" "a" false l u, .title (dollars (label ++ " = " ++ text))] := by
    simp only [barShade, hps, shadeBounds, h2.modal, Bool.false_eq_true, two_minmax.1, max_eq_left hl0, min_eq_left hu1,
      two_minmax.2, bind, Except.bind, pure, Except.pure, List.all_cons, List.all_nil, min_eq_left hlu, max_eq_right hlu, hl0, hu1,
      decide_true, Bool.and_self, ensure, barTitle, hlab, ht, List.map_cons, List.map_nil, htne, if_false, if_true, h2.name]
    rfl
  obtain ⟨top, hb⟩ := two_bars h2 one_pos two_pos lib cfg false true hshade
  exact ⟨l, x, u, text, top, hps, hb, htx⟩

theorem two_alpha {c : Chain ℝ} (h2 : TwoPoint c false 1 2) : ∃ a, (c.cfg .shadeAlpha : Flt ℝ) = .fin a ∧
    0 ≤ a * (1 / 5 + 4 / 5 * (c.cfg .shadeGradient : ℝ)) ∧ a * (1 / 5 + 4 / 5 * (c.cfg .shadeGradient : ℝ)) ≤ 1 := by
  have h : (c.cfg .shadeAlpha : Flt ℝ) = .fin (1 / 2) := by rw [h2.cfg]; rfl
  have h' : (c.cfg .shadeGradient : ℝ) = 1 := by rw [h2.cfg]; rfl
  rw [h']
  exact ⟨1 / 2, h, by norm_num, by norm_num⟩

/-- **C81** is violated by labels: a title of `plot_dist` has the name of the column, that of `plot` its label. -/
theorem C81_violated_label (lib : Lib) (hk : KdeOk lib.kde) : ∃ (c : Chain ℝ) (calls : List Call) (top : ℝ) (d : DistPlot) (t t' : String),
    plotBars lib { labels := [("a", "b")] } "a" c false true = .ok (calls, top) ∧ plotDist lib c "a" true = .ok d ∧
    titles calls = [t] ∧ d.title = some (.text t') ∧ t ≠ t' := by
  obtain ⟨c, h1, h2⟩ := twoPoint_exists false (u := 1) (v := 2) one_pos two_pos
  have hlab : stripDollars (getLabel ({ labels := [("a", "b")] } : PlotConfig).labels "a") = "b" := by decide
  obtain ⟨l, x, u, text, top, hps, hb, htx⟩ := two_labelled h2 hk hlab (by decide)
  obtain ⟨d, b, hd, hb', -, -, -, ht⟩ := C81_same_partial h2.kde (.inr h2.smooth) h2.modal h2.shaded h2.weights (by simp)
    (fun _ => two_alpha h2) hb
  obtain rfl := Except.ok.inj (hps.symm.trans hb')
  obtain ⟨label, text', -, -, ht⟩ := ht l x u rfl
  refine ⟨c, _, top, d, _, _, hb, hd, rfl, ht, ?_⟩
  intro he
  have := congrArg String.toList he
  simp [dollars] at this

/-- The hypotheses of `C81_same_partial` are met by the two-point grid: the interval is shaded by both, and the titles agree. -/
example (lib : Lib) (hk : KdeOk lib.kde) : ∃ (c : Chain ℝ) (calls : List Call) (top : ℝ) (d : DistPlot) (l u : ℝ) (t : String),
    plotBars lib {} "a" c false true = .ok (calls, top) ∧ plotDist lib c "a" true = .ok d ∧ shades calls = [(l, u)] ∧
    titles calls = [t] ∧ d.title = some (.text t) ∧ d.xs = [0, 1] := by
  obtain ⟨c, h1, h2⟩ := twoPoint_exists false (u := 1) (v := 2) one_pos two_pos
  have hlab : stripDollars (getLabel ({} : PlotConfig).labels "a") = "a" := by decide
  obtain ⟨l, x, u, text, top, hps, hb, htx⟩ := two_labelled h2 hk hlab (by decide)
  obtain ⟨d, b, hd, hb', ⟨xs, ys, rest, hc, -, -, -, -, hxs⟩, -, -, ht⟩ :=
    C81_same_partial h2.kde (.inr h2.smooth) h2.modal h2.shaded h2.weights (by simp) (fun _ => two_alpha h2) hb
  obtain rfl := Except.ok.inj (hps.symm.trans hb')
  have hpt : parameterText (some (.single (⟨some l, some x, some u⟩ : Bound ℝ))) false none = .ok text := by
    simp only [parameterText, singleText, htx, bind, Except.bind, pure, Except.pure, Option.getD_none, ne_eq, not_true_eq_false,
      if_false, Bool.false_eq_true]
  have hdt : distTitle "a" ⟨some l, some x, some u⟩ = .ok (.text (dollars ("a" ++ " = " ++ text))) := by
    simp only [distTitle, hpt, bind, Except.bind, pure, Except.pure, ne_eq, formatLimits_ne htx, not_false_eq_true, if_true]
  have hti : d.title = some (.text (dollars ("a" ++ " = " ++ text))) := by
    have hd' := hd
    simp only [plotDist, distDecorations, or_true, if_true, distTitleIf, hps, hdt, bind_ok_iff, pure_ok_iff, Except.ok.injEq,
      exists_eq_left'] at hd'
    obtain ⟨r, -, hh, -, dd, ⟨s, -, ti, rfl, rfl⟩, rfl⟩ := hd'
    rfl
  refine ⟨c, _, top, d, l, u, _, hb, hd, rfl, rfl, hti, ?_⟩
  rw [(hxs h2.smooth).1]
  injection hc with hc1 hc2
  injection hc1 with _ _ _ hc3
  exact hc3.symm

/-- Bins of positive width with a weighted sample inside have a density. -/
theorem histDensity_exists {bins data w : List ℝ} (hpos : ∀ v ∈ w, 0 < v) (hlen : w.length = data.length)
    (hinc : bins.Pairwise (· < ·)) (h2 : 2 ≤ bins.length) {x : ℝ} (hx : x ∈ data) (hlo : bins.getD 0 0 ≤ x)
    (hhi : x ≤ bins.getD (bins.length - 1) 0) : ∃ h, histDensity bins data w = .ok h := by
  have hw0 : ∀ v ∈ w, 0 ≤ v := fun v hv => (hpos v hv).le
  obtain ⟨i, hi, hbin⟩ := exists_inBin (by omega) hlo hhi
  have hmass : 0 < binMass bins data w i := by
    unfold binMass
    obtain ⟨j, hj, rfl⟩ := List.mem_iff_getElem.1 hx
    have hjw : j < w.length := by omega
    refine sum_pos_of_mem (x := w[j]) ?_ ?_ (hpos _ (List.getElem_mem _))
    · intro v hv
      obtain ⟨k, hk, rfl⟩ := List.mem_iff_getElem.1 hv
      rw [List.getElem_zipWith]
      split
      · exact hw0 _ (List.getElem_mem _)
      · exact le_rfl
    · refine List.mem_iff_getElem.2 ⟨j, by simp; omega, ?_⟩
      rw [List.getElem_zipWith, if_pos hbin]
  have hnsum : 0 < ((List.range (bins.length - 1)).map (binMass bins data w)).sum := by
    refine sum_pos_of_mem (x := binMass bins data w i) ?_ (List.mem_map.2 ⟨i, List.mem_range.2 hi, rfl⟩) hmass
    intro v hv
    obtain ⟨k, -, rfl⟩ := List.mem_map.1 hv
    exact binMass_nonneg hw0 k
  have h1 : histogram bins data w = .ok ((List.range (bins.length - 1)).map (binMass bins data w)) := histogram_ok_iff.2
    ⟨(all_tail_iff _ _).2 ((List.isChain_iff_pairwise.2 hinc).imp fun a b h => decide_eq_true (le_of_lt h)), rfl⟩
  have h3 : (List.zipWith (fun l r => decide (l ≠ r)) bins bins.tail).all id = true :=
    (all_tail_iff _ _).2 ((List.isChain_iff_pairwise.2 hinc).imp fun a b h => decide_eq_true (ne_of_lt h))
  refine ⟨List.zipWith (fun m d => m / d / ((List.range (bins.length - 1)).map (binMass bins data w)).sum)
    ((List.range (bins.length - 1)).map (binMass bins data w)) (List.zipWith (fun l r => r - l) bins bins.tail), ?_⟩
  simp only [histDensity, h1, h3, bind, Except.bind, ensure, if_true, pure, Except.pure, decide_eq_true hnsum.ne']

/-- A grid of three points. -/
def threeFrame : Frame ℝ := ⟨[.int 0, .int 1, .int 2], [("a", [0, 1, 2]), ("weight", [1, 1, 1])]⟩

theorem three_extents : getExtents ([0, 1, 2] : List ℝ) [1, 1, 1] false true false true = .ok (8007 / 10000, 21993 / 10000) := by
  obtain ⟨i, j, t, R, l, u, h1, h2, h3, ht, h4, h5, -, h6, hR, -, h7, h7', h8, -⟩ :=
    C45_extents ([0, 1, 2] : List ℝ) [1, 1, 1] rfl (by simp) 0 2 (by simp) (by simp)
      (by intro x hx; simp only [List.mem_cons, List.not_mem_nil, or_false] at hx; rcases hx with rfl | rfl | rfl <;> norm_num)
      (by norm_num) false true false true
  have hR' : R ≤ 3 := by
    rw [hR]
    simp only [weightWhere, List.zip_cons_cons, List.zip_nil_right, List.map_cons, List.map_nil, List.sum_cons, List.sum_nil]
    split_ifs <;> norm_num
  have hR0 : 0 ≤ R := by
    rw [hR]
    simp only [weightWhere, List.zip_cons_cons, List.zip_nil_right, List.map_cons, List.map_nil, List.sum_cons, List.sum_nil]
    split_ifs <;> norm_num
  simp only [Bool.false_eq_true, if_false] at ht
  have htR : t * R < 1 := by rw [ht]; linarith
  have htR0 : 0 ≤ t * R := by rw [ht]; positivity
  obtain rfl : j = 1999 := by
    by_contra hne
    have hj : j + 1 < 2000 := by omega
    have hj' : ((j + 1 : ℕ) : ℝ) ≤ 2000 := by exact_mod_cast hj.le
    have hP : cellEdge (0 : ℝ) 2 (j + 1) ≤ 2 := by unfold cellEdge; linarith
    simp only [weightWhere, List.zip_cons_cons, List.zip_nil_right, List.map_cons, List.map_nil, List.sum_cons,
      List.sum_nil, hP, hj, decide_true, if_true, and_true] at h8
    revert h8
    split_ifs <;> intro h8 <;> linarith
  obtain rfl : i = 1000 := by
    by_contra hne
    rcases Nat.lt_or_ge i 1000 with hlt | hge
    · have hi' : ((i + 1 : ℕ) : ℝ) ≤ 1000 := by exact_mod_cast hlt
      have hP : ¬ (1 : ℝ) < cellEdge (0 : ℝ) 2 (i + 1) := by unfold cellEdge; push Not; linarith
      have hP' : ¬ (2 : ℝ) < cellEdge (0 : ℝ) 2 (i + 1) := by unfold cellEdge; push Not; linarith
      have hP0 : ¬ cellEdge (0 : ℝ) 2 1 ≤ 0 := by unfold cellEdge; norm_num
      have hne' : i + 1 ≠ 2000 := by omega
      simp only [weightWhere, List.zip_cons_cons, List.zip_nil_right, List.map_cons, List.map_nil, List.sum_cons, List.sum_nil, hP, hP',
        hP0, hne', or_self, and_false, false_and, decide_false, Bool.false_eq_true, if_false] at h7'
      linarith
    · have hi' : (1001 : ℝ) ≤ i := by exact_mod_cast (show 1001 ≤ i by omega)
      have hP : cellEdge (0 : ℝ) 2 1 ≤ 1 ∧ 1 < cellEdge (0 : ℝ) 2 i := by
        unfold cellEdge; constructor <;> [norm_num; linarith]
      simp only [weightWhere, List.zip_cons_cons, List.zip_nil_right, List.map_cons, List.map_nil, List.sum_cons,
        List.sum_nil, hP, and_self, decide_true, if_true] at h7
      revert h7
      split_ifs <;> intro h7 <;> linarith
  rw [h6, if_pos rfl, h4, h5]
  unfold cellEdge
  norm_num

/-- **C81** is violated by smoothed grids: `plot_dist` does not use the bins of the grid. The histogram of `plot` reaches from the
first to the last point of the grid, the curve of `plot_dist` leaves out the first. -/
theorem C81_violated_grid (lib : Lib) : ∃ (c : Chain ℝ) (xs ys xs' ys' : List ℝ),
    Chain.make { samples := threeFrame.toRaw, name := "three", grid := true, config := [⟨.smooth, some 1⟩] } = .ok c ∧
    barData lib c "a" = .ok (xs, ys) ∧ xs.head? = some 0 ∧ xs.getLast? = some 2 ∧
    distCurve lib c "a" = .ok (xs', ys') ∧ ∀ x ∈ xs', 1 / 2 < x := by
  obtain ⟨c, h1, h2, h3, h4, h5, h6, h7, h8, h9⟩ := plain_chain_cfg (K := ℝ) true [⟨.smooth, some 1⟩] rfl
    (by change (0 : ℝ) ≤ 6827 / 10000 ∧ (6827 / 10000 : ℝ) ≤ 1; constructor <;> norm_num)
    (by change (1 : ℝ) ≤ 10; norm_num) rfl rfl (by intro h; cases h) threeFrame ⟨by simp [threeFrame], by simp [threeFrame]⟩
    (by simp [threeFrame]) (w := [1, 1, 1]) rfl (by simp) "three" 1 le_rfl (one_dvd _)
  have hk : c.cfg .kde = (0 : ℝ) := by rw [h9]; rfl
  have hs : c.smoothValue = 1 := by unfold Chain.smoothValue; rw [h9, h6]; rfl
  have hd : c.samples.get "a" = .ok [0, 1, 2] := by rw [h2]; rfl
  have hw : c.weights = .ok [1, 1, 1] := by rw [Chain.weights, h2, h3]; rfl
  have hgb : getGridBins ([0, 1, 2] : List ℝ) = .ok [-(1 / 2), 1 / 2, 3 / 2, 5 / 2] := by
    have hsort : sortUnique ([0, 1, 2] : List ℝ) = [0, 1, 2] := sortUnique_sorted (by norm_num)
    simp only [getGridBins, hsort]
    simp only [List.map_cons, List.map_nil, List.getLastD_cons, List.getLastD_nil, List.cons_append, List.nil_append,
      Except.ok.injEq, List.cons.injEq, and_true]
    norm_num
  have hmb : marginalBins c [0, 1, 2] [1, 1, 1] true = .ok [-(1 / 2), 1 / 2, 3 / 2, 5 / 2] := by
    rw [marginalBins, h6, if_pos rfl, hgb]
  have hmid : midpoints [-(1 / 2 : ℝ), 1 / 2, 3 / 2, 5 / 2] = [0, 1, 2] := by
    simp only [midpoints, List.tail_cons, List.zipWith_cons_cons, List.zipWith_nil_right, List.cons.injEq, and_true]
    norm_num
  obtain ⟨m, hm⟩ := C25_marginal_exists lib.kde c [1, 1, 1] [0, 1, 2] _ hw (by simp) rfl "a" hd true hmb (by norm_num) (by simp) (by
    rw [hmid]
    intro i hi
    have : ((gridSize : ℕ) : ℝ) = 10000 := by unfold gridSize; norm_num
    rw [this]
    simp only [List.length_cons, List.length_nil] at hi
    obtain rfl | rfl : i = 0 ∨ i = 1 := by omega
    · norm_num
    · norm_num) 1 (by simp) (by norm_num) (by norm_num) (by omega) (by rw [h5]; norm_num)
  have hm' : smoothedHistogram lib.kde c "a" true none = .ok m := by
    rw [← hm]
    simp only [smoothedHistogram, marginalYs, Option.getD_none, Option.getD_some, hk, ne_eq, not_true_eq_false, decide_false]
  have hmx := hm'
  simp only [smoothedHistogram, bind_ok_iff, ensure_ok_iff, pure_ok_iff, hd, hw, hmb, Except.ok.injEq, exists_eq_left'] at hmx
  obtain ⟨h0, hh0, h1', hh1, ab, hab, -, -, ys, hys, cs, -, rfl⟩ := hmx
  rw [hmid] at hab
  obtain rfl := Except.ok.inj hab
  have hbins : distBins c [0, 1, 2] [1, 1, 1] = .ok (linspace (8007 / 10000) (21993 / 10000) 70) := by
    have hgbs : getBins c = 35 := by
      have hb : c.cfg .bins = none := by rw [h9]; rfl
      unfold getBins
      rw [hb, hs, h2]
      decide
    simp only [distBins, getSmoothedBins, three_extents, hs, hgbs, linspaceInt, bind, Except.bind, pure, Except.pure]
    rfl
  have hinc : (linspace (8007 / 10000 : ℝ) (21993 / 10000) 70).Pairwise (· < ·) := linspace_increasing (by norm_num) (by norm_num)
  obtain ⟨g, hg⟩ := histDensity_exists (data := [0, 1, 2]) (w := [1, 1, 1]) (by simp) rfl hinc (by rw [linspace_length]; norm_num)
    (x := 1) (by simp)
    (by rw [List.getD_eq_getElem?_getD, ← List.head?_eq_getElem?, linspace_head (by norm_num)]; norm_num)
    (by rw [List.getD_eq_getElem?_getD, ← List.getLast?_eq_getElem?, linspace_last (by norm_num)]; norm_num)
  have hpow : powAll g c.power = .ok (g.map fun v => v ^ c.power) := by
    simp only [powAll, h5, zero_le_one, decide_true, Bool.true_or, ensure, if_true, bind, Except.bind, pure, Except.pure]
  obtain ⟨g', hg'⟩ : ∃ g', smoothHist c.smoothValue (g.map fun v => v ^ c.power) = .ok g' := by
    unfold smoothHist
    rw [hs]
    exact ⟨_, rfl⟩
  refine ⟨c, linspace 0 2 gridSize, ys, midpoints (linspace (8007 / 10000) (21993 / 10000) 70), g', h1, ?_, ?_, ?_, ?_, ?_⟩
  · simp only [barData, hs, ne_eq, one_ne_zero, not_false_eq_true, true_or, if_true, hm', bind, Except.bind, pure, Except.pure]
    rfl
  · exact linspace_head (by have := two_le_gridSize; omega)
  · exact linspace_last two_le_gridSize
  · simp only [distCurve, hd, hw, hk, hs, ne_eq, not_true_eq_false, one_ne_zero, not_false_eq_true, if_false, if_true, hbins, distSmoothed,
      hg, hpow, bind, Except.bind, pure, Except.pure]
    rw [hs] at hg'
    rw [hg']
  · intro x hx
    obtain ⟨k, hk, rfl⟩ := List.getElem_of_mem hx
    rw [midpoints_linspace_getElem]
    have : (0 : ℝ) ≤ k := Nat.cast_nonneg k
    push_cast
    nlinarith

end CC
