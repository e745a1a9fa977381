import Verif.Props.Ranges
import Verif.Props.PanelRanges
import Verif.Props.MaxPosterior
import Verif.Props.Colorbars

/-! # C122: points and truths are drawn inside the axes -/

namespace CC
open Spec

/-- A value that an axis of a panel shows: it lies in the range of that axis. -/
def Spec.Visible (d : Dir) (calls : List Call) (v : ℝ) : Prop := ∃ r, RangeIs d calls r ∧ r.1 ≤ v ∧ v ≤ r.2

/-- A value well inside of the samples: more than the fraction `t` of the weight lies more than a cell (1/2000 of the range of the
samples) below it, not counting the lowest cell, and more than that fraction more than a cell above it. -/
def Spec.WellInside (data w : List ℝ) (lo hi t v : ℝ) : Prop :=
  t * w.sum < weightWhere data w (fun x => decide (cellEdge lo hi 1 ≤ x ∧ x + (hi - lo) / 2000 < v)) ∧
  t * w.sum < weightWhere data w (fun x => decide (v + (hi - lo) / 2000 < x))

theorem visible_iff {d : Dir} {calls : List Call} {r : ℝ × ℝ} (h : RangeIs d calls r) (v : ℝ) :
    Visible d calls v ↔ r.1 ≤ v ∧ v ≤ r.2 := by
  constructor
  · rintro ⟨r', h', hv⟩
    unfold RangeIs at h h'
    rw [h] at h'
    cases h'
    exact hv
  · exact fun hv => ⟨r, h, hv⟩

/-- The range of samples that are not all equal, as used for plots: it leaves out the smallest and the largest of them, and contains
every value well inside of them. -/
theorem range_bounds {data w : List ℝ} (hl : w.length = data.length) (hw : ∀ v ∈ w, 0 < v) {lo hi : ℝ} (hs : IsSpan data lo hi)
    (hlt : lo < hi) (wide : Bool) : ∃ l u, getExtents data w true wide false false = .ok (l, u) ∧ lo < l ∧ u < hi ∧
      ∀ v, WellInside data w lo hi (if wide then 1 / 10 ^ 4 else 1 / 20) v → l ≤ v ∧ v ≤ u := by
  obtain ⟨i, j, t, R, l, u, hi1, hij, hj, ht, hel, heu, -, he, hR, hR0, h1, -, h2, -⟩ :=
    C45_extents data w hl hw lo hi hs.low_mem hs.high_mem hs.mem hlt true wide false false
  simp only [Bool.false_eq_true, if_false, if_true] at ht he
  have hwid : 0 < (hi - lo) / 2000 := by linarith
  have hw0 : ∀ v ∈ w, 0 ≤ v := fun v hv => (hw v hv).le
  have hcast : (1 : ℝ) ≤ i := by exact_mod_cast hi1
  have hcj : (j : ℝ) + 1 ≤ 2000 := by exact_mod_cast hj
  have h0t : 0 ≤ t := by rw [ht]; split <;> norm_num
  have hRw : R ≤ w.sum := by
    have e : w.sum = weightWhere data w (fun _ => true) := by
      simp only [weightWhere, if_true]
      have := List.map_snd_zip (l₁ := data) (l₂ := w) (by omega)
      change w.sum = ((data.zip w).map Prod.snd).sum
      rw [this]
    rw [hR, e]
    exact weightWhere_mono hw0 fun _ _ _ => rfl
  have hts : t * R ≤ t * w.sum := mul_le_mul_of_nonneg_left hRw h0t
  simp only [cellEdge] at hel heu h1 h2
  push_cast at hel heu h2
  refine ⟨l, u, he, ?_, ?_, ?_⟩
  · rw [hel]; nlinarith
  · rw [heu]
    have : ((j : ℝ) + 1) * ((hi - lo) / 2000) ≤ 2000 * ((hi - lo) / 2000) := mul_le_mul_of_nonneg_right hcj hwid.le
    nlinarith
  · rintro v ⟨hv1, hv2⟩
    rw [← ht] at hv1 hv2
    constructor
    · by_contra hv
      push Not at hv
      refine absurd ((weightWhere_mono hw0 fun x _ hx => ?_).trans (h1.trans hts)) (not_le.2 hv1)
      simp only [decide_eq_true_eq, cellEdge, Nat.cast_one] at hx ⊢
      refine ⟨hx.1, ?_⟩
      nlinarith [hx.2]
    · by_contra hv
      push Not at hv
      refine absurd ((weightWhere_mono hw0 fun x hxd hx => ?_).trans (h2.trans hts)) (not_le.2 hv2)
      simp only [decide_eq_true_eq] at hx ⊢
      have hx' : lo + ((j : ℝ) + 1) * ((hi - lo) / 2000) ≤ x := by nlinarith
      refine ⟨hx', ?_⟩
      by_contra hj2
      have hj3 : j = 1999 := by omega
      have hj4 : (j : ℝ) = 1999 := by rw [hj3]; norm_num
      have := (hs.mem x hxd).2
      rw [hj4] at heu
      linarith

/-- The coordinates of a maximum posterior point are values of their columns. -/
theorem coordinate_mem {c : Chain ℝ} (hf : c.samples.WF) {m : Chain.MaxPosterior ℝ} (h : c.maxPosteriorPoint = .ok (some m))
    {p : String} {v : ℝ} (hv : m.coordinate.lookup p = some v) : ∃ data, c.samples.get p = .ok data ∧ v ∈ data := by
  unfold Chain.maxPosteriorPoint at h
  split at h
  · cases h
  split at h
  · cases h
  split at h
  · cases h
  · dsimp only at h
    split at h
    · cases h
    · cases h
      have hm := lookup_mem hv
      obtain ⟨d, hd, hi⟩ := row_mem hf (List.mem_filter.1 (List.mem_filter.1 hm).1).1
      exact ⟨d, hd, List.mem_of_getElem? hi⟩
  · cases h

theorem point_of_surface {lib : Lib} {cfg : PlotConfig} {px py : String} {chains : List (Chain ℝ)} {calls : List Call}
    {bars : List String} (h : plotSurface lib cfg chains px py = .ok (calls, bars)) {n qx qy : String} {x y : ℝ}
    (hp : Call.point n qx qy x y ∈ calls) : qx = px ∧ qy = py ∧ ∃ c ∈ chains, c.name = n ∧ ∃ m,
      c.maxPosteriorPoint = .ok (some m) ∧ m.coordinate.lookup px = some x ∧ m.coordinate.lookup py = some y := by
  simp only [plotSurface, bind_ok_iff, pure_ok_iff, Prod.mk.injEq] at h
  obtain ⟨rs, h, rfl, -⟩ := h
  obtain ⟨r, hr, hp⟩ := List.mem_flatMap.1 hp
  obtain ⟨c, hc, hcr⟩ := mapM_ok_mem_right h hr
  unfold surfaceChain at hcr
  split at hcr
  · cases hcr; cases hp
  simp only [bind_ok_iff, pure_ok_iff] at hcr
  obtain ⟨cl, h1, ct, h2, pt, h3, rfl⟩ := hcr
  rcases List.mem_append.1 hp with hp | hp
  · exfalso
    rcases List.mem_append.1 hp with hp | hp
    · unfold cloudCalls at h1
      split at h1
      · simp only [bind_ok_iff, pure_ok_iff] at h1
        obtain ⟨q, hq, rfl⟩ := h1
        simp only [plotCloud, bind_ok_iff, pure_ok_iff] at hq
        obtain ⟨x, -, y, -, s, -, cd, -, rfl⟩ := hq
        cases List.mem_singleton.1 hp
      · cases h1; cases hp
    · unfold contourCalls at h2
      split at h2
      · simp only [bind_ok_iff, pure_ok_iff] at h2
        obtain ⟨q, hq, rfl⟩ := h2
        simp only [plotContour, bind_ok_iff, pure_ok_iff] at hq
        obtain ⟨_, -, x, -, y, -, -, -, -, -, -, -, rfl⟩ := hq
        cases List.mem_singleton.1 hp
      · cases h2; cases hp
  · unfold pointCalls at h3
    split at h3
    · unfold plotPoint at h3
      simp only [bind_ok_iff] at h3
      obtain ⟨m, hm, h3⟩ := h3
      cases m with
      | none => cases h3; cases hp
      | some m =>
        simp only at h3
        split at h3
        · rename_i vx vy hx hy
          cases h3
          cases List.mem_singleton.1 hp
          exact ⟨rfl, rfl, c, hc, rfl, m, hm, hx, hy⟩
        · cases h3; cases hp
    · cases h3; cases hp

/-- The automatic range contains every coordinate of the maximum posterior point of a chain that shows neither contours nor a cloud, or
is a grid, and every one that is well inside of the samples. -/
theorem coordinate_range {c : Chain ℝ} {p : String} {wide : Bool} {lo hi : ℝ} (h : OwnRange c p wide lo hi) (hf : c.samples.WF)
    {m : Chain.MaxPosterior ℝ} (hm : c.maxPosteriorPoint = .ok (some m)) {v : ℝ} (hv : m.coordinate.lookup p = some v)
    (hc : c.cfg .plotContour = false ∧ c.cfg .plotCloud = false ∨ c.grid = true ∨
      ∃ data w a z, c.samples.get p = .ok data ∧ c.weights = .ok w ∧ (∀ x ∈ w, 0 < x) ∧ IsSpan data a z ∧ a < z ∧
        WellInside data w a z (if wide then 1 / 10 ^ 4 else 1 / 20) v) : lo ≤ v ∧ v ≤ hi := by
  obtain ⟨data, hd, ⟨hs, hg, hspan⟩ | ⟨hs, hg, w, hw, he⟩ | ⟨h1, h2, m', v', hm', hv', rfl, rfl⟩⟩ := h
  · obtain ⟨d, hd', hvd⟩ := coordinate_mem hf hm hv
    rw [hd] at hd'
    cases hd'
    exact hspan.mem v hvd
  · rcases hc with ⟨h1, h2⟩ | hc | ⟨d, w', a, z, hd', hw', hpos, hsp, haz, hin⟩
    · rcases hs with hs | hs
      · rw [h1] at hs; cases hs
      · rw [h2] at hs; cases hs
    · rw [hg] at hc; cases hc
    · rw [hd] at hd'
      rw [hw] at hw'
      cases hd'
      cases hw'
      have hl : w.length = data.length := by
        unfold Chain.weights at hw
        rw [hf.2 _ (get_mem hd), hf.2 _ (get_mem hw)]
      obtain ⟨l, u, he', -, -, hall⟩ := range_bounds hl hpos hsp haz wide
      rw [he] at he'
      cases he'
      exact hall v hin
  · rw [hm] at hm'
    cases hm'
    rw [hv] at hv'
    cases hv'
    exact ⟨le_rfl, le_rfl⟩

theorem extents_chain {p : String} {wide : Bool} (chains : List (Chain ℝ)) : ∀ s r : Option (ℝ × ℝ),
    chains.foldlM (fun r c => do return joinRange r (← chainRange c p wide)) s = .ok r →
    ∀ c ∈ chains, ∃ q, chainRange c p wide = .ok q := by
  induction chains with
  | nil => intro s r _ c hc; cases hc
  | cons d ds ih =>
    intro s r h c hc
    simp only [List.foldlM_cons, bind_ok_iff, pure_ok_iff] at h
    obtain ⟨_, ⟨q, hq, rfl⟩, h⟩ := h
    rcases List.mem_cons.1 hc with rfl | hc
    · exact ⟨q, hq⟩
    · exact ih _ _ h c hc

/-- A shown chain with a maximum posterior point has a range for each of its coordinates. -/
theorem own_range {cfg : PlotConfig} {final : List (String × Chain ℝ)} {req : ChainReq ℝ}
    {columns : Option (List String)} {wide : Bool} {b : PlottingBase} (hb : sanitise cfg final req columns wide = .ok b)
    {p : String} (hp : p ∈ b.columns) (hn : cfg.extents.lookup p = none) {c : Chain ℝ} (hc : c ∈ b.chains)
    {m : Chain.MaxPosterior ℝ} (hm : c.maxPosteriorPoint = .ok (some m)) {v : ℝ} (hv : m.coordinate.lookup p = some v)
    (hf : c.samples.WF) : ∃ lo hi, OwnRange c p wide lo hi := by
  simp only [sanitise, bind_ok_iff, pure_ok_iff] at hb
  obtain ⟨chains, -, e, he, rfl⟩ := hb
  obtain ⟨r, hr, -⟩ := (C60_custom _ _ _ _ _ he p).2 hp hn
  obtain ⟨q, hq⟩ := extents_chain chains none r hr c hc
  have hiff := chainRange_iff hq
  cases q with
  | some q => exact ⟨q.1, q.2, (hiff _ _).1 rfl⟩
  | none =>
    exfalso
    unfold chainRange at hq
    have hcol : p ∈ c.samples.columns := by
      obtain ⟨d, hd, -⟩ := coordinate_mem hf hm hv
      exact get_ok_mem hd
    rw [if_neg (not_not.2 hcol)] at hq
    simp only [bind_ok_iff] at hq
    obtain ⟨data, -, hq⟩ := hq
    split at hq
    · split at hq <;> simp only [bind_ok_iff, pure_ok_iff, reduceCtorEq, and_false, exists_false] at hq
    · rw [hm] at hq
      simp [bind, Except.bind, hv, pure, Except.pure] at hq

/-- **C122, partial** (points). Every maximum posterior point that `plot` draws is the one of a chain of the figure. For parameters
without a configured range, it lies inside the axes if the chain shows neither contours nor a cloud (as markers do), if the chain is
a grid, or if its coordinates are well inside of the samples. Missing: other points of chains with contours or clouds, for which it is
false (`C122_hidden`, `C122_violated`). -/
theorem C122_points_partial {lib : Lib} {cfg : PlotConfig} {final : List (String × Chain ℝ)} {req : ChainReq ℝ}
    {columns : Option (List String)} {wide : Bool} {b : PlottingBase} (hb : sanitise cfg final req columns wide = .ok b)
    {truths : List (Truth ℝ)} {fig : Fig} (h : plotBase lib cfg truths b = .ok fig) (hwf : ∀ c ∈ b.chains, c.samples.WF)
    {i j : Nat} {calls : List Call} (hc : ((i, j), calls) ∈ fig.panels) {n px py : String} {x y : ℝ}
    (hp : Call.point n px py x y ∈ calls) : ∃ c ∈ b.chains, c.name = n ∧ ∃ m, c.maxPosteriorPoint = .ok (some m) ∧
      m.coordinate.lookup px = some x ∧ m.coordinate.lookup py = some y ∧
      ∀ d p v, (d, p, v) ∈ [(Dir.x, px, x), (Dir.y, py, y)] → cfg.extents.lookup p = none →
        (c.cfg .plotContour = false ∧ c.cfg .plotCloud = false ∨ c.grid = true ∨
          ∃ data w a z, c.samples.get p = .ok data ∧ c.weights = .ok w ∧ (∀ x ∈ w, 0 < x) ∧ IsSpan data a z ∧ a < z ∧
            WellInside data w a z (if wide then 1 / 10 ^ 4 else 1 / 20) v) → Visible d calls v := by
  have h66 := (C66_plot h hc).1
  obtain ⟨-, -, hcase⟩ := plot_cases h hc
  rcases hcase with ⟨hij, rfl⟩ | ⟨hjk, hji, qx, qy, s, d, bars, hqx, hqy, hs, hd, rfl⟩ | ⟨hh, rfl, p, s, r, hq, hs, hr, rfl⟩
  · simp at hp
  · obtain ⟨px', py', rx, ry, e1, e2, hrx, hry, hRx, hRy⟩ := h66 hjk hji
    rw [hqx] at e1
    rw [hqy] at e2
    cases e1
    cases e2
    have hp' : Call.point n px py x y ∈ d := by
      rcases List.mem_append.1 hp with hp | hp
      · exact absurd ((trianglePanel_setup hs) _ hp).1 (by simp [itemOf])
      rcases List.mem_append.1 hp with hp | hp
      · exact hp
      · have : Item.point n px py ∈ items (plotTruths lib.filled truths (some qx) (some qy)) := List.mem_filterMap.2 ⟨_, hp, rfl⟩
        rw [(plotTruths_marks _ _ _ _).1] at this
        cases this
    obtain ⟨rfl, rfl, c, hcb, hn, m, hm, hx, hy⟩ := point_of_surface hd hp'
    refine ⟨c, hcb, hn, m, hm, hx, hy, fun d' p v hdp hnone hok => ?_⟩
    have key : m.coordinate.lookup p = some v ∧ p ∈ b.columns ∧
        ∃ r, b.extents.lookup p = some (some r) ∧ RangeIs d' (s ++ (d ++ plotTruths lib.filled truths (some px) (some py))) r := by
      simp only [List.mem_cons, List.not_mem_nil, or_false, Prod.mk.injEq] at hdp
      rcases hdp with ⟨rfl, rfl, rfl⟩ | ⟨rfl, rfl, rfl⟩
      · exact ⟨hx, List.mem_of_getElem? hqx, rx, hrx, hRx⟩
      · exact ⟨hy, List.mem_of_getElem? hqy, ry, hry, hRy⟩
    obtain ⟨hv, hpb, r, hr, hR⟩ := key
    obtain ⟨r', hr', hcov⟩ := (C60_sanitise cfg final req columns wide b hb p).2 hpb hnone
    rw [hr] at hr'
    cases hr'
    obtain ⟨lo, hi, hown⟩ := own_range hb hpb hnone hcb hm hv (hwf c hcb)
    obtain ⟨u, z, e, h1, h2⟩ := hcov c hcb lo hi hown
    cases e
    obtain ⟨h3, h4⟩ := coordinate_range hown (hwf c hcb) hm hv hok
    exact (visible_iff hR v).2 ⟨h1.trans h3, h4.trans h2⟩
  · have h1 := ((C56_panels h).2.2 _ _ _ hc).2.2 hh rfl p hq
    have h2 : Item.point n px py ∈ items (s ++ (histTruths lib truths (cfg.flip && decide (b.columns.length = 2 ∧ i = 1)) p ++ r.1 ++
      topLim (cfg.flip && decide (b.columns.length = 2 ∧ i = 1)) r.2)) := List.mem_filterMap.2 ⟨_, hp, rfl⟩
    rw [h1] at h2
    simp [histItems] at h2

/-- **C122** (what is not shown). In the figure of a single chain with contours or a cloud that is not a grid, the axes of two
parameters without configured ranges do not even reach the smallest and the largest of the samples: a truth or a maximum posterior
point there, or anywhere beyond, is not visible. -/
theorem C122_hidden {lib : Lib} {cfg : PlotConfig} {final : List (String × Chain ℝ)} {req : ChainReq ℝ}
    {columns : Option (List String)} {wide : Bool} {b : PlottingBase} (hb : sanitise cfg final req columns wide = .ok b)
    {truths : List (Truth ℝ)} {fig : Fig} (h : plotBase lib cfg truths b = .ok fig) {c : Chain ℝ} (hch : b.chains = [c])
    (hs : c.cfg .plotContour = true ∨ c.cfg .plotCloud = true) (hg : c.grid = false) (hf : c.samples.WF) {w : List ℝ}
    (hw : c.weights = .ok w) (hpos : ∀ x ∈ w, 0 < x) {i j : Nat} {calls : List Call} (hc : ((i, j), calls) ∈ fig.panels)
    (hji : j < i + if cfg.plotHists then 0 else 1) (hji' : j ≤ i) {d : Dir} {p : String}
    (hp : b.columns[match d with | .x => j | .y => i + if cfg.plotHists then 0 else 1]? = some p)
    (hn : cfg.extents.lookup p = none) {data : List ℝ} (hd : c.samples.get p = .ok data) {lo hi : ℝ} (hsp : IsSpan data lo hi)
    (hlt : lo < hi) (v : ℝ) (hv : v ≤ lo ∨ hi ≤ v) : ¬ Visible d calls v := by
  have hpb : p ∈ b.columns := List.mem_of_getElem? hp
  have key : ∃ r, b.extents.lookup p = some (some r) ∧ RangeIs d calls r := by
    obtain ⟨px, py, rx, ry, e1, e2, hrx, hry, hRx, hRy⟩ := (C66_plot h hc).1 hji hji'
    cases d with
    | x => rw [e1] at hp; cases hp; exact ⟨rx, hrx, hRx⟩
    | y => rw [e2] at hp; cases hp; exact ⟨ry, hry, hRy⟩
  obtain ⟨r, hr, hR⟩ := key
  have hl : w.length = data.length := by
    unfold Chain.weights at hw
    rw [hf.2 _ (get_mem hd), hf.2 _ (get_mem hw)]
  obtain ⟨l, u, he, h1, h2, -⟩ := range_bounds hl hpos hsp hlt wide
  simp only [sanitise, bind_ok_iff, pure_ok_iff] at hb
  obtain ⟨chains, -, e, hce, rfl⟩ := hb
  simp only at hch hr hpb
  subst hch
  obtain ⟨r', hr', hl'⟩ := (C60_custom _ _ _ _ _ hce p).2 hpb hn
  rw [hl'] at hr
  cases hr
  obtain ⟨⟨c1, hc1, hi1, ho1⟩, c2, hc2, lo2, ho2⟩ := (C60_covers p wide _ _ hr').2.1 _ _ rfl
  cases List.mem_singleton.1 hc1
  cases List.mem_singleton.1 hc2
  have hown : ∀ a z, OwnRange c p wide a z → a = l ∧ z = u := by
    rintro a z ⟨data', hd', ⟨-, hg', -⟩ | ⟨-, -, w', hw', he'⟩ | ⟨h1, h2, -⟩⟩
    · rw [hg] at hg'; cases hg'
    · rw [hd] at hd'; rw [hw] at hw'
      cases hd'; cases hw'
      rw [he] at he'; cases he'
      exact ⟨rfl, rfl⟩
    · rcases hs with hs | hs
      · rw [h1] at hs; cases hs
      · rw [h2] at hs; cases hs
  have e1 := (hown _ _ ho1).1
  have e2 := (hown _ _ ho2).2
  rw [visible_iff hR, e1, e2]
  rintro ⟨h3, h4⟩
  rcases hv with hv | hv <;> linarith

/-- Five samples, the last one or the middle one with the greatest posterior. -/
noncomputable def farFrame (inner : Bool) : Frame ℝ :=
  ⟨[.int 0, .int 1, .int 2, .int 3, .int 4], [("a", [0, 1, 2, 3, 4]), ("b", [0, 10, 20, 30, 40]),
    ("log_posterior", if inner then [0, 0, 1, 0, 0] else [0, 0, 0, 0, 1]), ("weight", [1, 1, 1, 1, 1])]⟩

theorem farFrame_wf (inner : Bool) : (farFrame inner).WF := by cases inner <;> exact ⟨by decide, by simp [farFrame]⟩

/-- The coordinate of the sample with the greatest posterior. -/
noncomputable def farAt (inner : Bool) : ℝ := if inner then 2 else 4

/-- A cloud with the maximum posterior point. -/
noncomputable def farArgs (inner : Bool) : Args ℝ :=
  { samples := (farFrame inner).toRaw, name := "far", config := [⟨.plotContour, false⟩, ⟨.plotCloud, true⟩, ⟨.plotPoint, true⟩] }

theorem far_chain (inner : Bool) : ∃ c, Chain.make (farArgs inner) = .ok c ∧ c.samples = farFrame inner ∧ c.weights = .ok [1, 1, 1, 1, 1] ∧ c.grid = false ∧
    c.cfg .plotCloud = true ∧ c.skip = false ∧ c.plottingColumns = ["a", "b"] ∧ ∀ (lib : Lib) (cfg : PlotConfig),
      surfaceChain lib cfg "a" "b" c =
        .ok ([.cloud "far" "a" "b" [0, 1, 2, 3, 4] [0, 10, 20, 30, 40] none, .point "far" "a" "b" (farAt inner) (10 * farAt inner)], []) := by
  obtain ⟨c, hmk, hsam, hwc, hpc, -, hgr, -, hname, hcfg⟩ := plain_chain_cfg (K := ℝ) false
    [⟨.plotContour, false⟩, ⟨.plotCloud, true⟩, ⟨.plotPoint, true⟩] rfl
    (by change (0 : ℝ) ≤ 6827 / 10000 ∧ (6827 / 10000 : ℝ) ≤ 1; constructor <;> norm_num)
    (by change (1 : ℝ) ≤ 10; norm_num) rfl rfl (by intro h; cases h) (farFrame inner) (farFrame_wf inner)
    (by simp [farFrame]) (w := [1, 1, 1, 1, 1]) rfl (by simp) "far" 1 le_rfl (one_dvd _)
  have h1 : (c.cfg .plotCloud : Bool) = true := by rw [hcfg]; rfl
  have h2 : (c.cfg .plotContour : Bool) = false := by rw [hcfg]; rfl
  have h3 : (c.cfg .plotPoint : Bool) = true := by rw [hcfg]; rfl
  have h4 : c.cfg .colorParam = none := by rw [hcfg]; rfl
  have h5 : (c.cfg .numCloud : ℝ) = 10000 := by rw [hcfg]; rfl
  have ha : c.samples.get "a" = .ok [0, 1, 2, 3, 4] := by rw [hsam]; rfl
  have hb : c.samples.get "b" = .ok [0, 10, 20, 30, 40] := by rw [hsam]; rfl
  have hp : c.plottingColumns = ["a", "b"] := by
    rw [Chain.plottingColumns, Chain.dataColumns, h4, h1, hsam, hwc, hpc]
    rfl
  have hs : cloudStep 5 10000 = .ok 1 := by
    have : ⌊((5 : ℕ) : ℝ) / 10000⌋ = 0 := by
      rw [Int.floor_eq_zero_iff]; constructor <;> norm_num
    rw [cloudStep, this]
    simp [ensure, bind, Except.bind, pure, Except.pure]
  have he : ∀ a b d e f : ℝ, everyNth 1 [a, b, d, e, f] = [a, b, d, e, f] := fun a b d e f => everyNth_one _
  have hm : ∃ m, c.maxPosteriorPoint = .ok (some m) ∧ m.coordinate = [("a", farAt inner), ("b", 10 * farAt inner)] := by
    have hl : c.logPosterior = some (if inner then [0, 0, 1, 0, 0] else [0, 0, 0, 0, 1]) := by
      unfold Chain.logPosterior
      rw [hsam, hpc]
      rfl
    have hx : argmax (if inner then [0, 0, 1, 0, 0] else [0, 0, 0, 0, 1] : List ℝ) = some (if inner then 2 else 4) := by
      have h10 : ¬ (1 : ℝ) < 0 := by norm_num
      cases inner <;> simp [argmax, h10]
    have hx2 : (10 : ℝ) * 2 = 20 := by norm_num
    have hx4 : (10 : ℝ) * 4 = 40 := by norm_num
    unfold Chain.maxPosteriorPoint
    rw [hl]
    simp only [hx]
    rw [hsam, hpc, hp]
    cases inner
    · simp only [farAt, hx4, Bool.false_eq_true, if_false]; exact ⟨_, rfl, rfl⟩
    · simp only [farAt, hx2, if_true]; exact ⟨_, rfl, rfl⟩
  obtain ⟨m, hm, hmc⟩ := hm
  refine ⟨c, hmk, hsam, ?_, hgr, h1, ?_, hp, fun lib cfg => ?_⟩
  · rw [Chain.weights, hsam, hwc]; rfl
  · unfold Chain.skip
    rw [hsam, h1]
    simp [farFrame, Frame.empty]
  · unfold surfaceChain
    rw [hp, if_neg (by simp)]
    have hcd : c.colorData = .ok none := by unfold Chain.colorData; rw [h4]
    simp only [cloudCalls, h1, if_true, plotCloud, ha, hb, h5, hs, hcd, contourCalls, h2, pointCalls, h3, plotPoint, hm, hmc, hname, h4,
      bind, Except.bind, pure, Except.pure, List.length_cons, List.length_nil, he, List.lookup]
    rfl

theorem far_figure (lib : Lib) (inner : Bool) {v : ℝ} {t : Truth ℝ} (ht : t.location = [("a", v)]) :
    ∃ (c : Chain ℝ) (b : PlottingBase) (fig : Fig) (calls : List Call), Chain.make (farArgs inner) = .ok c ∧
      sanitise { plotHists := false } [("far", c)] .all none true = .ok b ∧
      plotBase lib { plotHists := false } [t] b = .ok fig ∧ ((0, 0), calls) ∈ fig.panels ∧
      .point "far" "a" "b" (farAt inner) (10 * farAt inner) ∈ calls ∧ .vline v t.kwargs ∈ calls ∧ b.chains = [c] ∧
      c.samples = farFrame inner ∧ c.weights = .ok [1, 1, 1, 1, 1] ∧ (∀ v, 4 ≤ v → ¬ Visible .x calls v) ∧
      (∀ v, 40 ≤ v → ¬ Visible .y calls v) := by
  obtain ⟨c, hmk, hsam, hw, hgr, hcl, hsk, hpc, hdraw⟩ := far_chain inner
  have ha : c.samples.get "a" = .ok [0, 1, 2, 3, 4] := by rw [hsam]; rfl
  have hb : c.samples.get "b" = .ok [0, 10, 20, 30, 40] := by rw [hsam]; rfl
  have hsa : IsSpan [(0 : ℝ), 1, 2, 3, 4] 0 4 := ⟨by simp, by simp, by intro x hx; simp at hx; rcases hx with rfl | rfl | rfl | rfl | rfl <;> norm_num⟩
  have hsb : IsSpan [(0 : ℝ), 10, 20, 30, 40] 0 40 := ⟨by simp, by simp, by intro x hx; simp at hx; rcases hx with rfl | rfl | rfl | rfl | rfl <;> norm_num⟩
  obtain ⟨la, ua, hea, -⟩ := range_bounds (data := [0, 1, 2, 3, 4]) (w := [1, 1, 1, 1, 1]) rfl (by simp) hsa (by norm_num) true
  obtain ⟨lb, ub, heb, -⟩ := range_bounds (data := [0, 10, 20, 30, 40]) (w := [1, 1, 1, 1, 1]) rfl (by simp) hsb (by norm_num) true
  have hra : chainRange c "a" true = .ok (some (la, ua)) := by
    unfold chainRange
    rw [if_neg (not_not.2 (get_ok_mem ha))]
    simp only [ha, hcl, hgr, hw, hea, bind, Except.bind, Bool.or_true, if_true, Bool.false_eq_true, if_false, pure, Except.pure]
  have hrb : chainRange c "b" true = .ok (some (lb, ub)) := by
    unfold chainRange
    rw [if_neg (not_not.2 (get_ok_mem hb))]
    simp only [hb, hcl, hgr, hw, heb, bind, Except.bind, Bool.or_true, if_true, Bool.false_eq_true, if_false, pure, Except.pure]
  have hsan : sanitise { plotHists := false } [("far", c)] .all none true =
      .ok ⟨[c], ["a", "b"], [("a", some (la, ua)), ("b", some (lb, ub))], [], []⟩ := by
    have h1 : plotChains [("far", c)] .all false = .ok [c] := by
      simp [plotChains, hsk, bind, Except.bind, pure, Except.pure]
    have h2 : sanitiseColumns none [c] = ["a", "b"] := by
      simp only [sanitiseColumns, List.foldl_cons, List.foldl_nil, hpc]
      rfl
    have h3 : customExtents ["a", "b"] [c] [] true = .ok [("a", some (la, ua)), ("b", some (lb, ub))] := by
      simp only [customExtents, parameterExtents, List.foldlM_cons, List.foldlM_nil, hra, hrb, bind, Except.bind, pure, Except.pure,
        joinRange, List.map_nil, List.not_mem_nil, if_false]
      rfl
    simp only [sanitise, h1, h2, h3, bind, Except.bind, pure, Except.pure]
    rfl
  generalize hbase : (⟨[c], ["a", "b"], [("a", some (la, ua)), ("b", some (lb, ub))], [], []⟩ : PlottingBase) = base at hsan
  have hcols : base.columns = ["a", "b"] := by rw [← hbase]
  have hchains : base.chains = [c] := by rw [← hbase]
  have hl : List.lookup "b" base.extents = some (some (lb, ub)) := by rw [← hbase]; rfl
  have hl' : List.lookup "a" base.extents = some (some (la, ua)) := by rw [← hbase]; rfl
  have h1 : ∃ s, trianglePanel { plotHists := false } base 1 0 0 "b" "a" = .ok s := by
    simp [trianglePanel, triangleYlim, setLim, hl, hl', bind, Except.bind, pure, Except.pure]
  obtain ⟨s, h1⟩ := h1
  have hg : gridPanels 1 1 = [(0, 0)] := rfl
  have h3 : ∀ su fl nx, drawPanel lib { plotHists := false } base [t] su fl nx 0 0 "b" "a" = .ok
      ([.cloud "far" "a" "b" [0, 1, 2, 3, 4] [0, 10, 20, 30, 40] none, .point "far" "a" "b" (farAt inner) (10 * farAt inner)] ++
        plotTruths lib.filled [t] (some "a") (some "b"), []) := by
    intro su fl nx
    simp only [drawPanel, hchains, plotSurface, List.mapM_cons, List.mapM_nil, hdraw, Nat.lt_irrefl, Bool.false_and, Bool.false_eq_true,
      if_false, bind, Except.bind, pure, Except.pure]
    rfl
  have hfig : plotBase lib { plotHists := false } [t] base = .ok ⟨[((0, 0), s ++
      ([.cloud "far" "a" "b" [0, 1, 2, 3, 4] [0, 10, 20, 30, 40] none, .point "far" "a" "b" (farAt inner) (10 * farAt inner)] ++
        plotTruths lib.filled [t] (some "a") (some "b")))], []⟩ := by
    simp only [plotBase, hcols, Bool.false_eq_true, if_false, List.tail_cons, List.length_cons, List.length_nil, Nat.zero_add,
      List.dropLast_cons_cons, List.dropLast_singleton, hg, List.mapM_cons, List.mapM_nil, List.getD_cons_zero, h3, h1, Nat.add_sub_cancel,
      bind, Except.bind, pure, Except.pure, ensure, Nat.zero_lt_one, decide_true, if_true, List.zipWith_cons_cons, List.zipWith_nil_left,
      List.zip_cons_cons, List.zip_nil_left]
    rfl
  have hid := fun (d : Dir) (p : String) hp (data : List ℝ) hd lo hi hsp hlt v hv =>
    C122_hidden hsan hfig hchains (.inr hcl) hgr (by rw [hsam]; exact farFrame_wf inner) hw (by simp) (i := 0) (j := 0)
    (List.mem_singleton_self _) (by simp) le_rfl (d := d) (p := p) hp rfl (data := data) hd (lo := lo) (hi := hi) hsp hlt v hv
  refine ⟨c, base, _, _, hmk, hsan, hfig, List.mem_singleton_self _, by simp, ?_, hchains, hsam, hw, fun v hv =>
    hid .x "a" (by rw [hcols]; rfl) _ ha 0 4 hsa (by norm_num) v (.inr hv),
    fun v hv => hid .y "b" (by rw [hcols]; rfl) _ hb 0 40 hsb (by norm_num) v (.inr hv)⟩
  refine List.mem_append_right _ (List.mem_append_right _ ?_)
  have h4 : List.lookup "a" [("a", v)] = some v := rfl
  have h5 : List.lookup "b" [("a", v)] = none := rfl
  simp only [plotTruths, List.flatMap_cons, List.flatMap_nil, truthCalls, ht, Option.bind_some, h4, h5]
  simp

/-- **C122, violated.** The maximum posterior point of a chain is drawn at `(4, 40)`, its last sample, and a truth for `a` at any `v`
from 4 on as a line, both outside the axes. -/
theorem C122_violated (lib : Lib) {v : ℝ} (hv : 4 ≤ v) {t : Truth ℝ} (ht : t.location = [("a", v)]) :
    ∃ (c : Chain ℝ) (b : PlottingBase) (fig : Fig) (calls : List Call), Chain.make (farArgs false) = .ok c ∧
      sanitise { plotHists := false } [("far", c)] .all none true = .ok b ∧
      plotBase lib { plotHists := false } [t] b = .ok fig ∧ ((0, 0), calls) ∈ fig.panels ∧
      .point "far" "a" "b" 4 40 ∈ calls ∧ ¬ Visible .x calls 4 ∧ ¬ Visible .y calls 40 ∧
      .vline v t.kwargs ∈ calls ∧ ¬ Visible .x calls v := by
  obtain ⟨c, b, fig, calls, h1, h2, h3, h4, h5, h6, -, -, -, h7, h8⟩ := far_figure lib false ht
  have e : (10 : ℝ) * 4 = 40 := by norm_num
  simp only [farAt, Bool.false_eq_true, if_false, e] at h5
  exact ⟨c, b, fig, calls, h1, h2, h3, h4, h5, h7 4 le_rfl, h8 40 le_rfl, h6, h7 v hv⟩

/-- A point in the middle of five samples is well inside, so `C122_points_partial` says that it is visible. -/
example (lib : Lib) (t : Truth ℝ) (ht : t.location = [("a", 4)]) : ∃ (c : Chain ℝ) (b : PlottingBase) (fig : Fig) (calls : List Call),
    Chain.make (farArgs true) = .ok c ∧ sanitise { plotHists := false } [("far", c)] .all none true = .ok b ∧
    plotBase lib { plotHists := false } [t] b = .ok fig ∧ ((0, 0), calls) ∈ fig.panels ∧
    .point "far" "a" "b" 2 20 ∈ calls ∧ Visible .x calls 2 := by
  obtain ⟨c, b, fig, calls, h1, h2, h3, h4, h5, -, h6, hsam, hw, -⟩ := far_figure lib true ht
  have e : (10 : ℝ) * 2 = 20 := by norm_num
  simp only [farAt, if_true, e] at h5
  refine ⟨c, b, fig, calls, h1, h2, h3, h4, h5, ?_⟩
  obtain ⟨c', hc', -, m, -, -, -, h⟩ := C122_points_partial h2 h3 (by rw [h6]; simp [hsam, farFrame_wf]) h4 h5
  rw [h6] at hc'
  cases List.mem_singleton.1 hc'
  refine h .x "a" 2 (by simp) rfl (.inr (.inr ⟨[0, 1, 2, 3, 4], _, 0, 4, by rw [hsam]; rfl, hw, by simp, ?_, by norm_num, ?_, ?_⟩))
  · exact ⟨by simp, by simp, by intro x hx; simp at hx; rcases hx with rfl | rfl | rfl | rfl | rfl <;> norm_num⟩
  · simp [weightWhere, cellEdge]; norm_num
  · simp [weightWhere]; norm_num

end CC
