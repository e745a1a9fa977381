import Verif.Props.SummaryScale
import Verif.Props.MegKde

/-! # C65, C66: the ranges of panels -/

namespace CC
open Spec

theorem mapM_ok_mem_right {α β : Type _} {f : α → Res β} {l : List α} {r : List β} (h : l.mapM f = .ok r) {y : β}
    (hy : y ∈ r) : ∃ x ∈ l, f x = .ok y := by
  replace h := mapM_ok_iff.1 h
  induction h with
  | nil => cases hy
  | cons hd _ ih =>
    rcases List.mem_cons.1 hy with rfl | hy
    · exact ⟨_, by simp, hd⟩
    · obtain ⟨x, hx, e⟩ := ih hy
      exact ⟨x, by simp [hx], e⟩

/-- A call that neither draws a curve nor sets a range. -/
def quiet (c : Call) : Prop := curveOf c = none ∧ ∀ d, limOf d c = none

theorem of_quiet {l : List Call} (h : ∀ c ∈ l, quiet c) : curves l = [] ∧ ∀ d, lims d l = [] :=
  ⟨List.filterMap_eq_nil_iff.2 fun c hc => (h c hc).1, fun d => List.filterMap_eq_nil_iff.2 fun c hc => (h c hc).2 d⟩

theorem quiet_append {a b : List Call} (ha : ∀ c ∈ a, quiet c) (hb : ∀ c ∈ b, quiet c) : ∀ c ∈ a ++ b, quiet c := by
  intro c hc
  rcases List.mem_append.1 hc with hc | hc
  · exact ha c hc
  · exact hb c hc

theorem plotTruths_quiet (filled : List String) (truths : List (Truth ℝ)) (px py : Option String) :
    ∀ c ∈ plotTruths filled truths px py, quiet c := by
  intro c hc
  have : (∃ x k, c = .vline x k) ∨ (∃ x k, c = .hline x k) ∨ ∃ x y k, c = .marker x y k := by
    obtain ⟨t, -, hc⟩ := List.mem_flatMap.1 hc
    simp only [truthCalls] at hc
    revert hc
    generalize px.bind (t.location.lookup ·) = vx
    generalize py.bind (t.location.lookup ·) = vy
    intro hc
    generalize t.marker = tm at hc
    cases vx <;> cases vy <;> cases tm <;>
      simp only [List.nil_append, List.append_nil, List.cons_append, List.mem_cons, List.not_mem_nil, or_false] at hc <;>
      first
        | exact .inl ⟨_, _, hc⟩
        | exact .inr (.inl ⟨_, _, hc⟩)
        | exact .inr (.inr ⟨_, _, _, hc⟩)
        | exact hc.elim (fun h => .inl ⟨_, _, h⟩) fun h => .inr (.inl ⟨_, _, h⟩)
  rcases this with ⟨_, _, rfl⟩ | ⟨_, _, rfl⟩ | ⟨_, _, _, rfl⟩ <;> exact ⟨rfl, fun _ => rfl⟩

theorem histTruths_quiet (lib : Lib) (truths : List (Truth ℝ)) (flip : Bool) (p : String) :
    ∀ c ∈ histTruths lib truths flip p, quiet c := by
  cases flip
  · exact plotTruths_quiet _ _ _ _
  · exact plotTruths_quiet _ _ _ _

theorem axisCalls_quiet (cfg : PlotConfig) (blind : List String) (d : Dir) (p : String) (log shown : Bool) :
    ∀ c ∈ axisCalls cfg blind d p log shown, quiet c := by
  intro c hc
  unfold axisCalls at hc
  have hl : c = .logScale d ∨ c = .noTicks d ∨ c = .axisLabel d (getLabel cfg.labels p) ∨ c = .logLocator d ∨
      c = .maxNLocator d := by
    by_cases hb : p ∈ blind <;> cases log <;> cases shown <;> simp [hb] at hc <;> tauto
  rcases hl with rfl | rfl | rfl | rfl | rfl <;> exact ⟨rfl, fun _ => rfl⟩

theorem surfaceChain_quiet {lib : Lib} {cfg : PlotConfig} {px py : String} {c : Chain ℝ} {calls : List Call}
    {bars : List String} (h : surfaceChain lib cfg px py c = .ok (calls, bars)) : ∀ c ∈ calls, quiet c := by
  unfold surfaceChain at h
  split at h
  · cases h; simp
  simp only [bind_ok_iff] at h
  obtain ⟨⟨cloud, bars'⟩, h1, contour, h2, point, h3, h⟩ := h
  rw [pure_ok_iff] at h
  cases h
  refine quiet_append (quiet_append ?_ ?_) ?_
  · unfold cloudCalls at h1
    split at h1
    · simp only [bind_ok_iff, pure_ok_iff] at h1
      obtain ⟨r, hr, e⟩ := h1
      cases e
      simp only [plotCloud, bind_ok_iff, pure_ok_iff] at hr
      obtain ⟨x, -, y, -, s, -, cd, -, rfl⟩ := hr
      intro c hc
      rw [List.mem_singleton.1 hc]
      exact ⟨rfl, fun _ => rfl⟩
    · cases h1; simp
  · unfold contourCalls at h2
    split at h2
    · simp only [bind_ok_iff, pure_ok_iff] at h2
      obtain ⟨r, hr, rfl⟩ := h2
      simp only [plotContour, bind_ok_iff, pure_ok_iff] at hr
      obtain ⟨_, -, x, -, y, -, -, -, -, -, -, -, rfl⟩ := hr
      intro c hc
      rw [List.mem_singleton.1 hc]
      exact ⟨rfl, fun _ => rfl⟩
    · cases h2; simp
  · unfold pointCalls at h3
    split at h3
    · simp only [plotPoint, bind_ok_iff] at h3
      obtain ⟨m, -, h3⟩ := h3
      cases m with
      | none => cases h3; simp
      | some m =>
        simp only at h3
        revert h3
        generalize m.coordinate.lookup px = vx
        generalize m.coordinate.lookup py = vy
        intro h3
        cases vx <;> cases vy <;> cases h3
        · simp
        · simp
        · simp
        · intro c hc
          rw [List.mem_singleton.1 hc]
          exact ⟨rfl, fun _ => rfl⟩
    · cases h3; simp

theorem plotSurface_quiet {lib : Lib} {cfg : PlotConfig} {px py : String} {chains : List (Chain ℝ)} {calls : List Call}
    {bars : List String} (h : plotSurface lib cfg chains px py = .ok (calls, bars)) : ∀ c ∈ calls, quiet c := by
  simp only [plotSurface, bind_ok_iff, pure_ok_iff, Prod.mk.injEq] at h
  obtain ⟨rs, h, rfl, -⟩ := h
  intro c hc
  obtain ⟨r, hr, hc⟩ := List.mem_flatMap.1 hc
  obtain ⟨ch, -, hch⟩ := mapM_ok_mem_right h hr
  exact surfaceChain_quiet (calls := r.1) (bars := r.2) hch c hc

/-! ### the panels of densities -/

/-- The greatest ordinate of the curves of a panel. -/
def Spec.IsHighest (calls : List Call) (m : ℝ) : Prop :=
  IsGreatest {y | ∃ p ys, (p, ys) ∈ curves calls ∧ y ∈ ys} m

/-- The range along the densities of a panel goes from 0 to 1.1 times the greatest ordinate of its curves. -/
def Spec.ScaledToCurves (calls : List Call) : Prop :=
  ∀ name p f xs ys, Call.marginal name p f xs ys ∈ calls →
    ∃ m, IsHighest calls m ∧ (lims (if f then .x else .y) calls).getLast? = some (0, 11 / 10 * m)

/-- Every curve of a panel lies within the range along the densities. -/
def Spec.CurvesInRange (calls : List Call) : Prop :=
  ∀ name p f xs ys, Call.marginal name p f xs ys ∈ calls →
    ∃ r, (lims (if f then .x else .y) calls).getLast? = some r ∧ ∀ y ∈ ys, r.1 ≤ y ∧ y ≤ r.2

/-- What construction guarantees for a chain (C07): positive weights, and a height that is not negative. -/
def Spec.Weighted (c : Chain ℝ) : Prop :=
  (∃ w, c.weights = .ok w ∧ ∀ v ∈ w, 0 < v) ∧ c.histogramRelativeHeight.geZero = true

theorem topStep_greatest {m : Option ℝ} {v : ℝ} : ∃ t, topStep m v = some t ∧ (t = v ∨ m = some t) ∧ v ≤ t ∧
    ∀ u, m = some u → u ≤ t := by
  cases m with
  | none => exact ⟨v, rfl, .inl rfl, le_rfl, by simp⟩
  | some m =>
    unfold topStep
    by_cases h : m < v
    · exact ⟨v, by simp [h], .inl rfl, le_rfl, by rintro u ⟨⟩; exact h.le⟩
    · exact ⟨m, by simp [h], .inr rfl, not_lt.1 h, by rintro u ⟨⟩; exact le_rfl⟩

/-- What the loops over the chains of a panel accumulate. -/
structure Accumulated (m m' : Option ℝ) (calls : List Call) : Prop where
  lims : ∀ d, lims d calls = []
  empty : m' = none → m = none ∧ curves calls = []
  mem : ∀ t, m' = some t → m = some t ∨ ∃ p ys, (p, ys) ∈ curves calls ∧ t ∈ ys
  prev : ∀ u, m = some u → ∃ t, m' = some t ∧ u ≤ t
  le : ∀ p ys, (p, ys) ∈ curves calls → ∃ t, m' = some t ∧ ∀ y ∈ ys, y ≤ t

theorem Accumulated.nil (m : Option ℝ) : Accumulated m m [] :=
  ⟨fun _ => rfl, fun h => ⟨h, rfl⟩, fun _ h => .inl h, fun u h => ⟨u, h, le_rfl⟩, by intro p ys h; cases h⟩

theorem Accumulated.cons {m m' : Option ℝ} {v : ℝ} {c1 c2 : List Call} {p : String} {ys : List ℝ}
    (hl : ∀ d, Spec.lims d c1 = []) (hc : curves c1 = [(p, ys)]) (hv : v ∈ ys) (hle : ∀ y ∈ ys, y ≤ v)
    (h : Accumulated (topStep m v) m' c2) : Accumulated m m' (c1 ++ c2) := by
  obtain ⟨t, ht, h1, h2, h3⟩ := topStep_greatest (m := m) (v := v)
  rw [ht] at h
  obtain ⟨t', ht', h4⟩ := h.prev t rfl
  refine ⟨fun d => by rw [lims_append, hl, h.lims]; rfl, (fun e => by rw [ht'] at e; cases e), ?_, ?_, ?_⟩
  · intro u hu
    rw [curves_append, hc]
    rcases h.mem u hu with e | ⟨q, zs, hz, hu'⟩
    · cases e
      rcases h1 with rfl | e
      · exact .inr ⟨p, ys, by simp, hv⟩
      · exact .inl e
    · exact .inr ⟨q, zs, by simp [hz], hu'⟩
  · intro u hu
    exact ⟨t', ht', (h3 u hu).trans h4⟩
  · intro q zs hz
    rw [curves_append, hc, List.mem_append, List.mem_singleton] at hz
    rcases hz with e | hz
    · cases e
      exact ⟨t', ht', fun y hy => ((hle y hy).trans h2).trans h4⟩
    · exact h.le q zs hz

theorem histChains_top {lib : Lib} {cfg : PlotConfig} {p : String} {flip summary : Bool} {chains : List (Chain ℝ)}
    {m m' : Option ℝ} {calls : List Call} (h : histChains lib cfg p flip summary chains m = .ok (calls, m')) :
    Accumulated m m' calls := by
  induction chains generalizing m calls with
  | nil => cases h; exact .nil _
  | cons c cs ih =>
    rw [histChains] at h
    split at h
    · exact ih h
    · rw [bind_ok_iff] at h
      obtain ⟨⟨c1, v⟩, hb, h⟩ := h
      rw [bind_ok_iff] at h
      obtain ⟨⟨c2, m2⟩, hr, h⟩ := h
      rw [pure_ok_iff] at h
      cases h
      obtain ⟨⟨ys, h1, h2, h3⟩, h4⟩ := plotBars_curves hb
      exact .cons h4 h1 h2 h3 (ih hr)

theorem distChains_top {lib : Lib} {cfg : PlotConfig} {p : String} {summary : Bool} {chains : List (Chain ℝ)}
    {m m' : Option ℝ} {calls : List Call} (h : distChains lib cfg p summary chains m = .ok (calls, m')) :
    Accumulated m m' calls := by
  induction chains generalizing m calls with
  | nil => cases h; exact .nil _
  | cons c cs ih =>
    rw [distChains] at h
    split at h
    · exact ih h
    · rw [bind_ok_iff] at h
      obtain ⟨⟨c1, v⟩, hb, h⟩ := h
      rw [bind_ok_iff] at h
      obtain ⟨⟨c2, m2⟩, hr, h⟩ := h
      rw [pure_ok_iff] at h
      cases h
      obtain ⟨⟨ys, h1, h2, h3⟩, h4⟩ := plotBars_curves hb
      exact .cons h4 h1 h2 h3 (ih hr)

theorem Accumulated.highest {m : ℝ} {calls : List Call} (h : Accumulated none (some m) calls) : IsHighest calls m := by
  refine ⟨?_, ?_⟩
  · rcases h.mem m rfl with e | h
    · cases e
    · exact h
  · rintro y ⟨p, ys, hc, hy⟩
    obtain ⟨t, ht, hle⟩ := h.le p ys hc
    cases ht
    exact hle y hy

/-- Curves of an accepted chain have no negative ordinates. -/
theorem plotBars_nonneg {lib : Lib} (hl : NearOk lib.near) {cfg : PlotConfig} {p : String} {c : Chain ℝ} (hc : Weighted c)
    {flip summary : Bool} {r : List Call × ℝ} (h : plotBars lib cfg p c flip summary = .ok r) :
    ∀ q ys, (q, ys) ∈ curves r.1 → ∀ y ∈ ys, 0 ≤ y := by
  unfold plotBars at h
  simp only [bind_ok_iff] at h
  obtain ⟨⟨xs, ys⟩, hb, hh, hht, top, htop, shade, hs, h⟩ := h
  rw [pure_ok_iff] at h
  cases h
  have hs' : curves shade = [] := by
    unfold barShadeIf at hs
    split at hs
    · exact (barShade_curves hs).1
    · cases hs; rfl
  obtain ⟨⟨w, hw, hpos⟩, hge⟩ := hc
  have h0 : 0 ≤ hh := by
    unfold Chain.finHeight at hht
    split at hht
    · rename_i x e
      cases hht
      rw [e] at hge
      simpa [Flt.geZero] using hge
    · cases hht
  have hy : ∀ y ∈ ys, 0 ≤ y := by
    unfold barData at hb
    split at hb
    · simp only [bind_ok_iff] at hb
      obtain ⟨m, hm, hb⟩ := hb
      rw [pure_ok_iff] at hb
      cases hb
      exact (C25_marginal_valid _ (megKde_kdeOk hl) c w hw hpos _ _ _ m hm).density_nonneg
    · simp only [bind_ok_iff, pure_ok_iff] at hb
      obtain ⟨data, -, w', hw', bins, -, h1, hh1, h2, hh2, e⟩ := hb
      rw [hw] at hw'
      cases hw'
      cases e
      exact (powAll_ok (histDensity_ok (fun v hv => (hpos v hv).le) hh1).2.2 hh2).2
  intro q zs hq
  have : curves (.marginal c.name p flip xs (ys.map (· * hh)) :: shade) = [(p, ys.map (· * hh))] := by
    change _ :: curves shade = _
    rw [hs']
  rw [this, List.mem_singleton] at hq
  cases hq
  intro y hy'
  obtain ⟨z, hz, rfl⟩ := List.mem_map.1 hy'
  exact mul_nonneg (hy z hz) h0

theorem histChains_nonneg {lib : Lib} (hl : NearOk lib.near) {cfg : PlotConfig} {p : String} {flip summary : Bool}
    {chains : List (Chain ℝ)} (hw : ∀ c ∈ chains, Weighted c) {m m' : Option ℝ} {calls : List Call}
    (h : histChains lib cfg p flip summary chains m = .ok (calls, m')) :
    ∀ q ys, (q, ys) ∈ curves calls → ∀ y ∈ ys, 0 ≤ y := by
  induction chains generalizing m calls with
  | nil => cases h; simp [curves]
  | cons c cs ih =>
    rw [histChains] at h
    split at h
    · exact ih (fun c hc => hw c (by simp [hc])) h
    · rw [bind_ok_iff] at h
      obtain ⟨⟨c1, v⟩, hb, h⟩ := h
      rw [bind_ok_iff] at h
      obtain ⟨⟨c2, m2⟩, hr, h⟩ := h
      rw [pure_ok_iff] at h
      cases h
      intro q ys hq
      rw [curves_append, List.mem_append] at hq
      rcases hq with hq | hq
      · exact plotBars_nonneg hl (hw c (by simp)) hb q ys hq
      · exact ih (fun c hc => hw c (by simp [hc])) hr q ys hq

theorem distChains_nonneg {lib : Lib} (hl : NearOk lib.near) {cfg : PlotConfig} {p : String} {summary : Bool}
    {chains : List (Chain ℝ)} (hw : ∀ c ∈ chains, Weighted c) {m m' : Option ℝ} {calls : List Call}
    (h : distChains lib cfg p summary chains m = .ok (calls, m')) :
    ∀ q ys, (q, ys) ∈ curves calls → ∀ y ∈ ys, 0 ≤ y := by
  induction chains generalizing m calls with
  | nil => cases h; simp [curves]
  | cons c cs ih =>
    rw [distChains] at h
    split at h
    · exact ih (fun c hc => hw c (by simp [hc])) h
    · rw [bind_ok_iff] at h
      obtain ⟨⟨c1, v⟩, hb, h⟩ := h
      rw [bind_ok_iff] at h
      obtain ⟨⟨c2, m2⟩, hr, h⟩ := h
      rw [pure_ok_iff] at h
      cases h
      intro q ys hq
      rw [curves_append, List.mem_append] at hq
      rcases hq with hq | hq
      · exact plotBars_nonneg hl (hw c (by simp)) hb q ys hq
      · exact ih (fun c hc => hw c (by simp [hc])) hr q ys hq

theorem mem_curves {calls : List Call} {name p : String} {f : Bool} {xs ys : List ℝ}
    (h : Call.marginal name p f xs ys ∈ calls) : (p, ys) ∈ curves calls :=
  List.mem_filterMap.2 ⟨_, h, rfl⟩

theorem Spec.ScaledToCurves.inRange {calls : List Call} (h : ScaledToCurves calls)
    (h0 : ∀ q ys, (q, ys) ∈ curves calls → ∀ y ∈ ys, 0 ≤ y) : CurvesInRange calls := by
  intro name p f xs ys hm
  obtain ⟨m, ⟨⟨q, zs, hq, hz⟩, hub⟩, hl⟩ := h name p f xs ys hm
  refine ⟨_, hl, fun y hy => ⟨h0 _ _ (mem_curves hm) y hy, ?_⟩⟩
  have h1 : y ≤ m := hub ⟨p, ys, mem_curves hm, hy⟩
  have h2 : 0 ≤ m := h0 _ _ hq m hz
  change y ≤ 11 / 10 * m
  linarith

/-- Ranges set while a panel of the triangle is set up. -/
theorem trianglePanel_lims {cfg : PlotConfig} {b : PlottingBase} {n i j : Nat} {p1 p2 : String} {s : List Call}
    (h : trianglePanel cfg b n i j p1 p2 = .ok s) (hij : j ≤ i) :
    curves s = [] ∧ (∃ r, b.extents.lookup p2 = some (some r) ∧ lims .x s = [r]) ∧
    ((i ≠ j ∨ cfg.plotHists = false ∨ cfg.flip = true ∧ i = 1) →
      ∃ r, b.extents.lookup p1 = some (some r) ∧ lims .y s = [r]) := by
  unfold trianglePanel at h
  rw [if_neg (by omega)] at h
  simp only [bind_ok_iff, pure_ok_iff] at h
  obtain ⟨ylim, hy, xlim, hx, rfl⟩ := h
  obtain ⟨lo, hi, rfl, ex⟩ := setLim_setup hx
  obtain ⟨q1, q2⟩ := of_quiet (axisCalls_quiet cfg b.blind .x p2 (logAxes cfg b.logScales n j p1 p2).1 (bottomTicks cfg n i j))
  obtain ⟨q3, q4⟩ := of_quiet (axisCalls_quiet cfg b.blind .y p1 (logAxes cfg b.logScales n j p1 p2).2 (leftTicks cfg i j))
  have hyl : curves ylim = [] ∧ lims .x ylim = [] ∧ ((i ≠ j ∨ cfg.plotHists = false ∨ cfg.flip = true ∧ i = 1) →
      ∃ r, b.extents.lookup p1 = some (some r) ∧ lims .y ylim = [r]) := by
    unfold triangleYlim at hy
    split at hy
    · simp only [bind_ok_iff, pure_ok_iff] at hy
      obtain ⟨_, hy, rfl⟩ := hy
      obtain ⟨l, u, rfl, ey⟩ := setLim_setup hy
      exact ⟨rfl, rfl, fun _ => ⟨_, ey, rfl⟩⟩
    · rename_i hn
      cases hy
      refine ⟨rfl, rfl, fun hc => absurd ?_ hn⟩
      rcases hc with h | h | ⟨h1, h2⟩
      · simp [h]
      · simp [h]
      · simp [h1, h2]
  refine ⟨?_, ⟨_, ex, ?_⟩, fun hc => ?_⟩
  · simp only [curves_append, q1, q3, hyl.1]; rfl
  · simp only [lims_append, q2, q4, hyl.2.1]; rfl
  · obtain ⟨r, e1, e2⟩ := hyl.2.2 hc
    exact ⟨r, e1, by simp only [lims_append, q2, q4, e2]; rfl⟩

/-- The curves of a panel of `plot`, and its ranges. -/
theorem histPanel_scaled {lib : Lib} {cfg : PlotConfig} {b : PlottingBase} {truths : List (Truth ℝ)} {n i : Nat} {p : String}
    {s : List Call} {r : List Call × Option ℝ} {flip summary : Bool} (hs : trianglePanel cfg b n i i p p = .ok s)
    (hr : histChains lib cfg p flip summary b.chains none = .ok r) :
    ScaledToCurves (s ++ (histTruths lib truths flip p ++ r.1 ++ topLim flip r.2)) ∧
    curves (s ++ (histTruths lib truths flip p ++ r.1 ++ topLim flip r.2)) = curves r.1 := by
  obtain ⟨c1, m⟩ := r
  have hacc := histChains_top hr
  obtain ⟨hs0, -, -⟩ := trianglePanel_lims hs le_rfl
  obtain ⟨ht0, -⟩ := of_quiet (histTruths_quiet lib truths flip p)
  have htop : curves (topLim flip m) = [] := by cases m <;> rfl
  have hcur : curves (s ++ (histTruths lib truths flip p ++ c1 ++ topLim flip m)) = curves c1 := by
    simp only [curves_append, hs0, ht0, htop, List.nil_append, List.append_nil]
  refine ⟨?_, hcur⟩
  intro name q f xs ys hm
  have hf : f = flip := by
    have h1 : Item.hist name q f ∈ items (s ++ (histTruths lib truths flip p ++ c1 ++ topLim flip m)) :=
      List.mem_filterMap.2 ⟨_, hm, rfl⟩
    have e1 : items s = [] := (items_of_setup (trianglePanel_setup hs)).1
    have e2 : items (histTruths lib truths flip p) = [] := by
      unfold histTruths
      split <;> exact (plotTruths_marks ..).1
    have e3 : items (topLim flip m) = [] := by cases m <;> rfl
    simp only [items_append, e1, e2, e3, (histChains_items hr).1, List.nil_append, List.append_nil, histItems, List.mem_map] at h1
    obtain ⟨_, -, e⟩ := h1
    cases e
    rfl
  subst hf
  have hmem := mem_curves hm
  rw [hcur] at hmem
  cases m with
  | none => rw [(hacc.empty rfl).2] at hmem; cases hmem
  | some m =>
    refine ⟨m, ?_, ?_⟩
    · have := hacc.highest
      unfold IsHighest at this ⊢
      rwa [hcur]
    · rw [lims_append, lims_append,
        show lims (if f = true then .x else .y) (topLim f (some m)) = [((0 : ℝ), 11 / 10 * m)] by cases f <;> rfl,
        ← List.append_assoc, List.getLast?_concat]

/-- **C65** for `plot`: along the densities every panel with curves ranges from 0 to 1.1 times the greatest ordinate of
all its curves. -/
theorem C65_plot {lib : Lib} {cfg : PlotConfig} {truths : List (Truth ℝ)} {b : PlottingBase} {fig : Fig}
    (h : plotBase lib cfg truths b = .ok fig) {ij : Nat × Nat} {calls : List Call} (hc : (ij, calls) ∈ fig.panels) :
    ScaledToCurves calls ∧ (NearOk lib.near → (∀ c ∈ b.chains, Weighted c) → CurvesInRange calls) := by
  obtain ⟨i, j⟩ := ij
  obtain ⟨-, -, hcase⟩ := plot_cases h hc
  have hempty : ∀ calls : List Call, curves calls = [] → ScaledToCurves calls ∧ CurvesInRange calls := by
    intro calls h0
    constructor
    · intro name p f xs ys hm
      have := mem_curves hm
      rw [h0] at this
      cases this
    · intro name p f xs ys hm
      have := mem_curves hm
      rw [h0] at this
      cases this
  rcases hcase with ⟨-, rfl⟩ | ⟨-, hji, px, py, s, d, bars, -, -, hs, hd, rfl⟩ | ⟨-, rfl, p, s, r, -, hs, hr, rfl⟩
  · obtain ⟨h1, h2⟩ := hempty _ (show curves [Call.frameOff, .noTicks .x, .noTicks .y] = [] from rfl)
    exact ⟨h1, fun _ _ => h2⟩
  · obtain ⟨h1, h2⟩ := hempty (s ++ (d ++ plotTruths lib.filled truths (some px) (some py))) (by
      rw [curves_append, curves_append, (trianglePanel_lims hs hji).1, (of_quiet (plotSurface_quiet hd)).1,
        (of_quiet (plotTruths_quiet lib.filled truths (some px) (some py))).1]
      rfl)
    exact ⟨h1, fun _ _ => h2⟩
  · obtain ⟨h1, h2⟩ := histPanel_scaled (truths := truths) hs hr
    refine ⟨h1, fun hl hw => h1.inRange ?_⟩
    rw [h2]
    exact histChains_nonneg hl hw (calls := r.1) (m' := r.2) hr

/-- The ranges and curves of a panel of `plot_distributions`. -/
theorem distPanel_lims {lib : Lib} {cfg : PlotConfig} {b : PlottingBase} {truths : List (Truth ℝ)} {p : String}
    {calls : List Call} (h : distPanel lib cfg b truths p = .ok calls) :
    ∃ summary d m, distChains lib cfg p summary b.chains none = .ok (d, some m) ∧ curves calls = curves d ∧
      lims .y calls = [(0, 11 / 10 * m)] ∧ ∃ r, b.extents.lookup p = some (some r) ∧ lims .x calls = [r] := by
  simp only [distPanel, bind_ok_iff, pure_ok_iff] at h
  obtain ⟨xlim, hx, r, hr, ylim, hy, rfl⟩ := h
  obtain ⟨lo, hi, rfl, ex⟩ := setLim_setup hx
  obtain ⟨d, m⟩ := r
  obtain ⟨m, rfl, rfl⟩ : ∃ v, m = some v ∧ ylim = .lim .y 0 (11 / 10 * v) := by
    cases m <;> cases hy
    exact ⟨_, rfl, rfl⟩
  have hacc := distChains_top hr
  obtain ⟨t1, t2⟩ := of_quiet (plotTruths_quiet lib.filled truths none (some p))
  refine ⟨_, d, m, hr, ?_, ?_, (lo, hi), ex, ?_⟩
  · simp only [curves_append, t1]
    by_cases hl : p ∈ b.logScales <;> by_cases hb : p ∈ b.blind <;> simp [hl, hb, curves, curveOf, List.filterMap_cons]
  · simp only [lims_append, t2, hacc.lims]
    by_cases hl : p ∈ b.logScales <;> by_cases hb : p ∈ b.blind <;> simp [hl, hb, lims, limOf, List.filterMap_cons]
  · simp only [lims_append, t2, hacc.lims]
    by_cases hl : p ∈ b.logScales <;> by_cases hb : p ∈ b.blind <;> simp [hl, hb, lims, limOf, List.filterMap_cons]

theorem distChains_upright {lib : Lib} {cfg : PlotConfig} {p : String} {summary : Bool} {chains : List (Chain ℝ)}
    {m m' : Option ℝ} {calls : List Call} (h : distChains lib cfg p summary chains m = .ok (calls, m'))
    {i : Item} (hi : i ∈ items calls) : ∃ name, i = .hist name p false := by
  induction chains generalizing m calls with
  | nil => cases h; cases hi
  | cons c cs ih =>
    rw [distChains] at h
    split at h
    · exact ih h hi
    · rw [bind_ok_iff] at h
      obtain ⟨⟨c1, v⟩, hb, h⟩ := h
      rw [bind_ok_iff] at h
      obtain ⟨⟨c2, m2⟩, hr, h⟩ := h
      rw [pure_ok_iff] at h
      cases h
      rw [items_append, (plotBars_items hb).1, List.mem_append, List.mem_singleton] at hi
      rcases hi with rfl | hi
      · exact ⟨_, rfl⟩
      · exact ih hr hi

theorem distPanel_upright {lib : Lib} {cfg : PlotConfig} {b : PlottingBase} {truths : List (Truth ℝ)} {p : String}
    {calls : List Call} (h : distPanel lib cfg b truths p = .ok calls) {name q : String} {f : Bool} {xs ys : List ℝ}
    (hm : Call.marginal name q f xs ys ∈ calls) : f = false := by
  simp only [distPanel, bind_ok_iff, pure_ok_iff] at h
  obtain ⟨xlim, hx, r, hr, ylim, hy, rfl⟩ := h
  obtain ⟨lo, hi, rfl, ex⟩ := setLim_setup hx
  obtain ⟨d, m⟩ := r
  obtain ⟨m, rfl, rfl⟩ : ∃ v, m = some v ∧ ylim = .lim .y 0 (11 / 10 * v) := by
    cases m <;> cases hy
    exact ⟨_, rfl, rfl⟩
  have ht := (plotTruths_marks lib.filled truths none (some p)).1
  have hi : Item.hist name q f ∈ items d := by
    have h1 : Item.hist name q f ∈ items _ := List.mem_filterMap.2 ⟨_, hm, rfl⟩
    simp only [items_append, ht] at h1
    by_cases hl : p ∈ b.logScales <;> by_cases hb : p ∈ b.blind <;>
      simpa [hl, hb, items, itemOf, List.filterMap_cons] using h1
  obtain ⟨_, e⟩ := distChains_upright hr hi
  cases e
  rfl

/-- **C65** for `plot_distributions`. -/
theorem C65_distributions {lib : Lib} {cfg : PlotConfig} {truths : List (Truth ℝ)} {colWrap : Nat} {b : PlottingBase}
    {fig : Fig} (h : plotDistributionsBase lib cfg truths colWrap b = .ok fig) {ij : Nat × Nat} {calls : List Call}
    (hc : (ij, calls) ∈ fig.panels) :
    ScaledToCurves calls ∧ (NearOk lib.near → (∀ c ∈ b.chains, Weighted c) → CurvesInRange calls) := by
  obtain ⟨-, -, hp, -⟩ := distributions_panels h
  obtain ⟨-, ⟨-, rfl⟩ | ⟨-, h2⟩⟩ := hp _ _ hc
  · constructor
    · intro name p f xs ys hm
      simp at hm
    · intro _ _ name p f xs ys hm
      simp at hm
  · obtain ⟨summary, d, m, hd, hcur, hy, -⟩ := distPanel_lims h2
    have hacc := distChains_top hd
    have hsc : ScaledToCurves calls := by
      intro name q f xs ys hm
      have hf : f = false := distPanel_upright h2 hm
      subst hf
      refine ⟨m, ?_, by rw [if_neg Bool.false_ne_true, hy]; rfl⟩
      have := hacc.highest
      unfold IsHighest at this ⊢
      rwa [hcur]
    refine ⟨hsc, fun hl hw => hsc.inRange ?_⟩
    rw [hcur]
    exact distChains_nonneg hl hw hd

/-! ### ranges of parameters -/

/-- The range an axis of a panel ends up with: the last one set. -/
def Spec.RangeIs (d : Dir) (calls : List Call) (r : ℝ × ℝ) : Prop := (lims d calls).getLast? = some r

/-- **C66** for `plot`: below the diagonal both axes, and on the diagonal the axis of the parameter, get the range of
the parameter they show. -/
theorem C66_plot {lib : Lib} {cfg : PlotConfig} {truths : List (Truth ℝ)} {b : PlottingBase} {fig : Fig}
    (h : plotBase lib cfg truths b = .ok fig) {i j : Nat} {calls : List Call} (hc : ((i, j), calls) ∈ fig.panels) :
    let k := if cfg.plotHists then 0 else 1
    (j < i + k → j ≤ i → ∃ px py rx ry, b.columns[j]? = some px ∧ b.columns[i + k]? = some py ∧
      b.extents.lookup px = some (some rx) ∧ b.extents.lookup py = some (some ry) ∧
      RangeIs .x calls rx ∧ RangeIs .y calls ry) ∧
    (cfg.plotHists = true → i = j → ∃ p r, b.columns[i]? = some p ∧ b.extents.lookup p = some (some r) ∧
      RangeIs (if cfg.flip = true ∧ b.columns.length = 2 ∧ i = 1 then .y else .x) calls r) := by
  intro k
  obtain ⟨-, -, hcase⟩ := plot_cases h hc
  rcases hcase with ⟨hij, rfl⟩ | ⟨hjk, hji, px, py, s, d, bars, hpx, hpy, hs, hd, rfl⟩ | ⟨hh, rfl, p, s, r, hp, hs, hr, rfl⟩
  · exact ⟨fun _ h => by omega, fun _ h => by omega⟩
  · refine ⟨fun _ _ => ?_, fun h1 h2 => ?_⟩
    · obtain ⟨-, ⟨rx, ex, hx⟩, hy⟩ := trianglePanel_lims hs hji
      obtain ⟨ry, ey, hy⟩ := hy (by
        change j < i + (if cfg.plotHists = true then 0 else 1) at hjk
        cases hh : cfg.plotHists
        · exact .inr (.inl rfl)
        · simp only [hh, if_true] at hjk
          exact .inl (by omega))
      have hq : ∀ e, lims e (s ++ (d ++ plotTruths lib.filled truths (some px) (some py))) = lims e s := by
        intro e
        rw [lims_append, lims_append, (of_quiet (plotSurface_quiet hd)).2,
          (of_quiet (plotTruths_quiet lib.filled truths (some px) (some py))).2]
        simp
      refine ⟨px, py, rx, ry, hpx, hpy, ex, ey, ?_, ?_⟩
      · rw [RangeIs, hq, hx]; rfl
      · rw [RangeIs, hq, hy]; rfl
    · change j < i + (if cfg.plotHists = true then 0 else 1) at hjk
      rw [if_pos h1] at hjk
      omega
  · refine ⟨fun h1 _ => ?_, fun _ _ => ?_⟩
    · change i < i + (if cfg.plotHists = true then 0 else 1) at h1
      rw [if_pos hh] at h1
      omega
    · obtain ⟨-, ⟨rx, ex, hx⟩, hy⟩ := trianglePanel_lims hs le_rfl
      obtain ⟨c1, m⟩ := r
      have hacc := histChains_top hr
      by_cases hf : cfg.flip = true ∧ b.columns.length = 2 ∧ i = 1
      · obtain ⟨ry, ey, hy⟩ := hy (.inr (.inr ⟨hf.1, hf.2.2⟩))
        refine ⟨p, ry, hp, ey, ?_⟩
        have hf' : (cfg.flip && decide (b.columns.length = 2 ∧ i = 1)) = true := by simp [hf]
        rw [if_pos hf, hf', RangeIs, lims_append, lims_append, lims_append, hy, hacc.lims,
          (of_quiet (histTruths_quiet lib truths true p)).2]
        cases m <;> rfl
      · refine ⟨p, rx, hp, ex, ?_⟩
        have hf' : (cfg.flip && decide (b.columns.length = 2 ∧ i = 1)) = false := by
          cases h : cfg.flip
          · rfl
          · simp only [h, true_and] at hf
            simp [hf]
        rw [if_neg hf, hf', RangeIs, lims_append, lims_append, lims_append, hx, hacc.lims,
          (of_quiet (histTruths_quiet lib truths false p)).2]
        cases m <;> rfl

/-- **C66** for `plot_distributions`. -/
theorem C66_distributions {lib : Lib} {cfg : PlotConfig} {truths : List (Truth ℝ)} {colWrap : Nat} {b : PlottingBase}
    {fig : Fig} (h : plotDistributionsBase lib cfg truths colWrap b = .ok fig) {i j : Nat} {calls : List Call}
    (hc : ((i, j), calls) ∈ fig.panels) {p : String} (hp : b.columns[i * min b.columns.length colWrap + j]? = some p) :
    ∃ r, b.extents.lookup p = some (some r) ∧ RangeIs .x calls r := by
  obtain ⟨-, -, hpan, -⟩ := distributions_panels h
  have hlt := (List.getElem?_eq_some_iff.1 hp).1
  obtain ⟨-, ⟨h1, -⟩ | ⟨-, h2⟩⟩ := hpan _ _ hc
  · simp only at h1
    omega
  · simp only [List.getD_eq_getElem?_getD, hp, Option.getD_some] at h2
    obtain ⟨_, _, _, -, -, -, r, h3, h4⟩ := distPanel_lims h2
    exact ⟨r, h3, by rw [RangeIs, h4]; rfl⟩

/-- **C66** for `plot_summary`: the `k`-th column is shown in the panels after the name. -/
theorem C66_summary {lib : Lib} {cfg : PlotConfig} {truths : List (Truth ℝ)} {errorbar : Bool} {b : PlottingBase} {fig : Fig}
    (h : plotSummaryBase lib cfg truths errorbar b = .ok fig) {i k : Nat} {calls : List Call}
    (hc : ((i, k + 1), calls) ∈ fig.panels) :
    ∃ p r, b.columns[k]? = some p ∧ b.extents.lookup p = some (some r) ∧ RangeIs .x calls r := by
  obtain ⟨c, l, -, hl, ⟨h0, -⟩ | ⟨k', p, cell, hk, hp, hcell, rfl⟩⟩ := summary_cell h hc
  · omega
  obtain rfl : k = k' := by omega
  simp only [summaryCell, bind_ok_iff, pure_ok_iff] at hcell
  obtain ⟨xlim, hx, r, hr, rfl⟩ := hcell
  obtain ⟨lo, hi, rfl, ex⟩ := setLim_setup hx
  refine ⟨p, (lo, hi), hp, ex, ?_⟩
  have hl' : lims .x l = [] := by rcases hl with rfl | ⟨m, rfl⟩ <;> rfl
  have hr' : lims .x r.1 = [] := by
    unfold summaryContent at hr
    split at hr
    · cases hr; rfl
    · split at hr
      · rw [bind_ok_iff] at hr
        obtain ⟨bd, -, hr⟩ := hr
        split at hr
        · cases hr; rfl
        · split at hr <;> cases hr <;> rfl
      · rw [bind_ok_iff] at hr
        obtain ⟨v, hv, hr⟩ := hr
        rw [pure_ok_iff] at hr
        subst hr
        exact (plotBars_curves (calls := v.1) (v := v.2) hv).2 _
  simp only [RangeIs, lims_append, hl', hr', (summaryTruth_curves truths p).2]
  generalize (decide (i < b.chains.length - 1) || decide (p ∈ b.blind)) = q
  by_cases hl : p ∈ b.logScales <;> by_cases hi0 : i = 0 <;> cases q <;> simp [hl, hi0, lims, limOf, List.filterMap_cons]

theorem plotWalk_lims {chain label : String} {values : List ℝ} {e : Option (Option (ℝ × ℝ))} {log : Bool}
    {calls : List Call} (h : plotWalk chain label values e log = .ok calls) {r : ℝ × ℝ} (hr : e = some (some r)) :
    lims .y calls = [r] := by
  subst hr
  simp only [plotWalk, bind_ok_iff, pure_ok_iff, ensure_ok_iff, walkLim, setLim, Except.ok.injEq] at h
  obtain ⟨lim, ⟨_, rfl, rfl⟩, -, -, rfl⟩ := h
  cases log <;> rfl

/-- **C66** for `plot_walks`: the panel of a parameter some chain has. -/
theorem C66_walks {cfg : PlotConfig} {truths : List (Truth ℝ)} {pw pp lw : Bool} {b : PlottingBase} {fig : Fig}
    (h : plotWalksBase cfg truths pw pp lw b = .ok fig) {i j : Nat} {calls : List Call} (hc : ((i, j), calls) ∈ fig.panels)
    {p : String} {r : ℝ × ℝ} (hr : b.extents.lookup p = some (some r)) :
    let e := (if pp = true ∧ ∃ c ∈ b.chains, c.logPosterior.isSome = true then 1 else 0) + (if pw then 1 else 0)
    e ≤ i → b.columns[i - e]? = some p → (∃ c ∈ b.chains, p ∈ c.dataColumns) → RangeIs .y calls r := by
  intro e hi hp hex
  obtain ⟨p', hp', hw⟩ := (walks_cases h hc).2 hi
  rw [hp] at hp'
  cases hp'
  simp only [walkPanel, bind_ok_iff, pure_ok_iff] at hw
  obtain ⟨walks, hw, rfl⟩ := hw
  have ht : lims .y (truths.flatMap (walkTruth p)) = [] := by
    rw [lims, List.filterMap_eq_nil_iff]
    intro c hc
    obtain ⟨t, -, hc⟩ := List.mem_flatMap.1 hc
    unfold walkTruth at hc
    split at hc
    · cases hc
    · rw [List.mem_singleton.1 hc]; rfl
  have hb : lims .y (if p ∈ b.blind then [Call.noTicks .y] else []) = [] := by split <;> rfl
  rw [RangeIs, lims_append, lims_append, ht, hb, List.append_nil, List.append_nil]
  have key : ∀ l ∈ walks, lims .y l = [] ∨ lims .y l = [r] := by
    intro l hl
    obtain ⟨c, -, hcl⟩ := mapM_ok_mem_right hw hl
    split at hcl
    · rw [bind_ok_iff] at hcl
      obtain ⟨v, -, hcl⟩ := hcl
      exact .inr (plotWalk_lims hcl hr)
    · cases hcl; exact .inl rfl
  obtain ⟨c, hc1, hc2⟩ := hex
  obtain ⟨l, hl, hcl⟩ := mapM_ok_mem hw hc1
  rw [if_pos hc2, bind_ok_iff] at hcl
  obtain ⟨v, -, hcl⟩ := hcl
  have hne := plotWalk_lims hcl hr
  have hall : ∀ v ∈ lims .y walks.flatten, v = r := by
    intro v hv
    obtain ⟨a, ha, hav⟩ := List.mem_filterMap.1 hv
    obtain ⟨l', hl', ha'⟩ := List.mem_flatten.1 ha
    have hv' : v ∈ lims .y l' := List.mem_filterMap.2 ⟨a, ha', hav⟩
    rcases key l' hl' with e | e
    · rw [e] at hv'; cases hv'
    · rw [e] at hv'; exact List.mem_singleton.1 hv'
  have hmem : r ∈ lims .y walks.flatten := by
    have : r ∈ lims .y l := by rw [hne]; simp
    obtain ⟨a, ha, hav⟩ := List.mem_filterMap.1 this
    exact List.mem_filterMap.2 ⟨a, List.mem_flatten.2 ⟨l, hl, ha⟩, hav⟩
  cases hg : (lims .y walks.flatten).getLast? with
  | none => rw [List.getLast?_eq_none_iff.1 hg] at hmem; cases hmem
  | some v => rw [hall v (List.mem_of_getLast? hg)]

/-! ### examples -/

theorem demo_weighted {c : Chain ℝ} {f : Frame ℝ} {name : String} {grid : Bool} {kw : List (Kwarg ℝ)}
    (hc : DemoChain c f name grid kw) (hf : f = pairFrame ∨ f = singleFrame) : Weighted c := by
  refine ⟨⟨[1, 1], ?_, by simp⟩, ?_⟩
  · rw [Chain.weights, hc.samples, hc.weight]
    rcases hf with rfl | rfl <;> rfl
  · rw [hc.height]
    simp [Flt.geZero]

/-- The other panels of `plot_walks`: a parameter that no chain has (it can be requested by name) gets no range and no label,
whatever range is configured. -/
theorem C66_walks_absent {cfg : PlotConfig} {truths : List (Truth ℝ)} {pw pp lw : Bool} {b : PlottingBase} {fig : Fig}
    (h : plotWalksBase cfg truths pw pp lw b = .ok fig) {i j : Nat} {calls : List Call} (hc : ((i, j), calls) ∈ fig.panels)
    {p : String} :
    let e := (if pp = true ∧ ∃ c ∈ b.chains, c.logPosterior.isSome = true then 1 else 0) + (if pw then 1 else 0)
    e ≤ i → b.columns[i - e]? = some p → (∀ c ∈ b.chains, p ∉ c.dataColumns) →
      (∀ r, ¬ RangeIs .y calls r) ∧ ∀ d s, .axisLabel d s ∉ calls := by
  intro e hi hp hno
  obtain ⟨p', hp', hw⟩ := (walks_cases h hc).2 hi
  rw [hp] at hp'
  cases hp'
  simp only [walkPanel, bind_ok_iff, pure_ok_iff] at hw
  obtain ⟨walks, hw, rfl⟩ := hw
  have hwn : walks.flatten = [] := by
    rw [List.flatten_eq_nil_iff]
    intro l hl
    obtain ⟨c, hcm, hcl⟩ := mapM_ok_mem_right hw hl
    rw [if_neg (hno c hcm)] at hcl
    cases hcl
    rfl
  have ht : ∀ c ∈ truths.flatMap (walkTruth p), ∃ v k, c = Call.hline v k := by
    intro c hc
    obtain ⟨t, -, hc⟩ := List.mem_flatMap.1 hc
    unfold walkTruth at hc
    split at hc
    · cases hc
    · exact ⟨_, _, List.mem_singleton.1 hc⟩
  have hb : ∀ c ∈ (if p ∈ b.blind then [Call.noTicks .y] else []), c = Call.noTicks .y := by
    intro c hc
    split at hc
    · exact List.mem_singleton.1 hc
    · cases hc
  rw [hwn, List.nil_append]
  constructor
  · intro r hr
    have hm := List.mem_of_getLast? hr
    obtain ⟨c, hc, hcr⟩ := List.mem_filterMap.1 hm
    rcases List.mem_append.1 hc with hc | hc
    · obtain ⟨v, k, rfl⟩ := ht c hc
      cases hcr
    · rw [hb c hc] at hcr
      cases hcr
  · intro d s hc
    rcases List.mem_append.1 hc with hc | hc
    · obtain ⟨v, k, h⟩ := ht _ hc
      cases h
    · cases hb _ hc

/-- The histogram of a chain in the first panel of `plot`. -/
example (lib : Lib) (hl : NearOk lib.near) : ∃ (b : PlottingBase) (fig : Fig) (calls : List Call) (flip : Bool) (xs ys : List ℝ),
    plotBase lib {} [] b = .ok fig ∧ ((0, 0), calls) ∈ fig.panels ∧ Call.marginal "one" "a" flip xs ys ∈ calls ∧
    ScaledToCurves calls ∧ CurvesInRange calls ∧ RangeIs .x calls (0, 1) := by
  obtain ⟨c1, h1⟩ := gridSingle_exists
  obtain ⟨c2, h2⟩ := cloudPair_exists
  obtain ⟨fig, hf⟩ := demo_triangle lib [] h1 h2
  have hk1 : (c1.cfg .plotContour : Bool) = true := by rw [h1.cfg]; rfl
  have hk2 : (c2.cfg .plotContour : Bool) = false := by rw [h2.cfg]; rfl
  have hc1 : c1.samples.columns = ["a", "weight"] := by rw [h1.samples]; rfl
  obtain ⟨calls, flip, hm, hi⟩ := ((C56_once hf (show ["a", "b"].Nodup by decide)).2 0 "a" rfl).1 rfl
  have hi' : Item.hist "one" "a" flip ∈ items calls := by
    rw [hi, histItems, show (demoBase [c1, c2]).chains = [c1, c2] from rfl]
    simp [hk1, hk2, hc1, h1.name]
  obtain ⟨c, hc, e⟩ := List.mem_filterMap.1 hi'
  obtain ⟨xs, ys, rfl⟩ : ∃ xs ys, c = .marginal "one" "a" flip xs ys := by
    cases c <;> simp [itemOf] at e
    obtain ⟨rfl, rfl, rfl⟩ := e
    exact ⟨_, _, rfl⟩
  obtain ⟨k1, k2⟩ := C65_plot hf hm
  refine ⟨_, fig, calls, flip, xs, ys, hf, hm, hc, k1, k2 hl ?_, ?_⟩
  · intro c hc
    simp only [demoBase, List.mem_cons, List.not_mem_nil, or_false] at hc
    rcases hc with rfl | rfl
    · exact demo_weighted h1 (.inr rfl)
    · exact demo_weighted h2 (.inl rfl)
  · obtain ⟨p, r, hp, hr, hri⟩ := (C66_plot hf hm).2 rfl rfl
    cases hp
    cases hr
    simpa using hri

/-- Both columns of a chain with `plot_distributions`. -/
example (lib : Lib) (hl : NearOk lib.near) : ∃ (b : PlottingBase) (fig : Fig) (calls : List Call),
    plotDistributionsBase lib {} [] 4 b = .ok fig ∧ ((0, 1), calls) ∈ fig.panels ∧ CurvesInRange calls ∧
    RangeIs .x calls (0, 10) := by
  obtain ⟨c, hc⟩ := gridPair_exists
  obtain ⟨r1, r2, hf⟩ := demo_dist lib [] hc
  have hm : ((0, 1), r2) ∈ [((0, 0), r1), ((0, 1), r2)] := by simp
  refine ⟨_, _, r2, hf, hm, (C65_distributions hf hm).2 hl ?_, ?_⟩
  · intro c' hc'
    rw [List.mem_singleton.1 hc']
    exact demo_weighted hc (.inl rfl)
  · obtain ⟨r, hr, hri⟩ := C66_distributions hf hm (p := "b") rfl
    cases hr
    exact hri

/-- The second column with `plot_summary`. -/
example (lib : Lib) : ∃ (b : PlottingBase) (fig : Fig) (calls : List Call),
    plotSummaryBase lib {} [] false b = .ok fig ∧ ((0, 2), calls) ∈ fig.panels ∧ RangeIs .x calls (0, 10) := by
  obtain ⟨c, hc⟩ := gridPair_exists
  obtain ⟨ca, cb, fig, hf, hp, -⟩ := demo_summary lib [] hc
  have hm : ((0, 2), cb) ∈ fig.panels := by rw [hp]; simp
  obtain ⟨p, r, h1, h2, h3⟩ := C66_summary hf hm
  cases h1
  cases h2
  exact ⟨_, fig, cb, hf, hm, h3⟩

/-- The first column with `plot_walks`, after the weights. -/
example : ∃ (b : PlottingBase) (fig : Fig) (calls : List Call),
    plotWalksBase {} [] true false false b = .ok fig ∧ ((1, 0), calls) ∈ fig.panels ∧ RangeIs .y calls (0, 1) := by
  obtain ⟨c, hc⟩ := gridPair_exists
  obtain ⟨r1, r2, r3, hf⟩ := demo_walks [] hc
  have hcalls : ((1, 0), r1) ∈ [((0, 0), r3), ((1, 0), r1), ((2, 0), r2)] := by simp
  refine ⟨_, _, r1, hf, hcalls, C66_walks hf hcalls (p := "a") rfl (by simp) (by simp; rfl) ?_⟩
  exact ⟨c, by simp [demoBase], by rw [demo_dataColumns hc]; simp⟩

end CC
