import Verif.Spec.Figure
import Verif.Lemmas.Figure

/-! What the components of a panel draw. -/

namespace CC
open Spec

/-- Calls that draw nothing. -/
def isSetup (c : Call) : Prop := itemOf c = none ∧ markOf c = none

theorem setLim_setup {d : Dir} {e : Option (Option (ℝ × ℝ))} {c : Call} (h : setLim d e = .ok c) :
    ∃ lo hi, c = .lim d lo hi ∧ e = some (some (lo, hi)) := by
  unfold setLim at h
  split at h <;> cases h
  exact ⟨_, _, rfl, rfl⟩

theorem axisCalls_setup (cfg : PlotConfig) (blind : List String) (d : Dir) (p : String) (log shown : Bool) :
    ∀ c ∈ axisCalls cfg blind d p log shown, isSetup c := by
  intro c hc
  unfold axisCalls at hc
  have hl : c = .logScale d ∨ c = .noTicks d ∨ c = .axisLabel d (getLabel cfg.labels p) ∨ c = .logLocator d ∨
      c = .maxNLocator d := by
    by_cases hb : p ∈ blind <;> cases log <;> cases shown <;> simp [hb] at hc <;> tauto
  rcases hl with rfl | rfl | rfl | rfl | rfl <;> exact ⟨rfl, rfl⟩

theorem trianglePanel_setup {cfg : PlotConfig} {b : PlottingBase} {n i j : Nat} {p1 p2 : String} {s : List Call}
    (h : trianglePanel cfg b n i j p1 p2 = .ok s) : ∀ c ∈ s, isSetup c := by
  unfold trianglePanel at h
  by_cases hij : i < j
  · rw [if_pos hij] at h
    cases h
    intro c hc
    simp only [List.mem_cons, List.not_mem_nil, or_false] at hc
    rcases hc with rfl | rfl | rfl <;> exact ⟨rfl, rfl⟩
  · rw [if_neg hij] at h
    simp only [bind_ok_iff, pure_ok_iff] at h
    obtain ⟨ylim, hy, xlim, hx, rfl⟩ := h
    intro c hc
    obtain ⟨_, _, rfl, -⟩ := setLim_setup hx
    simp only [List.mem_append, List.mem_singleton] at hc
    rcases hc with ((hc | hc) | hc) | rfl
    · exact axisCalls_setup _ _ _ _ _ _ c hc
    · exact axisCalls_setup _ _ _ _ _ _ c hc
    · unfold triangleYlim at hy
      split at hy
      · simp only [bind_ok_iff, pure_ok_iff] at hy
        obtain ⟨_, hy, rfl⟩ := hy
        obtain ⟨_, _, rfl, -⟩ := setLim_setup hy
        rw [List.mem_singleton.1 hc]
        exact ⟨rfl, rfl⟩
      · cases hy
        cases hc
    · exact ⟨rfl, rfl⟩

theorem items_of_setup {s : List Call} (h : ∀ c ∈ s, isSetup c) : items s = [] ∧ marks s = [] :=
  ⟨List.filterMap_eq_nil_iff.2 fun c hc => (h c hc).1, List.filterMap_eq_nil_iff.2 fun c hc => (h c hc).2⟩

theorem items_append (a b : List Call) : items (a ++ b) = items a ++ items b := List.filterMap_append
theorem marks_append (a b : List Call) : marks (a ++ b) = marks a ++ marks b := List.filterMap_append

theorem truthCalls_marks (filled : List String) (px py : Option String) (t : Truth ℝ) :
    items (truthCalls filled px py t) = [] ∧ marks (truthCalls filled px py t) = dueMarks [t] px py := by
  simp only [truthCalls, dueMarks, List.flatMap_cons, List.flatMap_nil, List.append_nil]
  generalize px.bind (t.location.lookup ·) = vx
  generalize py.bind (t.location.lookup ·) = vy
  cases vx <;> cases vy <;> cases t.marker <;> exact ⟨rfl, rfl⟩

theorem plotTruths_marks (filled : List String) (truths : List (Truth ℝ)) (px py : Option String) :
    items (plotTruths filled truths px py) = [] ∧ marks (plotTruths filled truths px py) = dueMarks truths px py := by
  induction truths with
  | nil => exact ⟨rfl, rfl⟩
  | cons t ts ih =>
    have e : plotTruths filled (t :: ts) px py = truthCalls filled px py t ++ plotTruths filled ts px py := rfl
    obtain ⟨h1, h2⟩ := truthCalls_marks filled px py t
    refine ⟨by rw [e, items_append, h1, ih.1]; rfl, ?_⟩
    rw [e, marks_append, h2, ih.2]
    simp [dueMarks]

theorem barShade_setup {lib : Lib} {cfg : PlotConfig} {p : String} {c : Chain ℝ} {xs : List ℝ} {flip summary : Bool}
    {calls : List Call} (h : barShade lib cfg c p xs flip summary = .ok calls) :
    (∀ c ∈ calls, isSetup c ∧ ∀ d t, Ticks.step d t c = t) ∧ (summary = false → titles calls = []) := by
  unfold barShade at h
  simp only [bind_ok_iff] at h
  obtain ⟨b, -, h⟩ := h
  split at h
  · simp only [bind_ok_iff] at h
    obtain ⟨⟨ivs, s⟩, -, a, -, z, -, -, -, title, ht, h⟩ := h
    rw [pure_ok_iff] at h
    subst h
    constructor
    · intro c hc
      rcases List.mem_append.1 hc with hc | hc
      · obtain ⟨_, -, rfl⟩ := List.mem_map.1 hc
        exact ⟨⟨rfl, rfl⟩, fun _ _ => rfl⟩
      · split at hc
        · cases hc
        · rw [List.mem_singleton.1 hc]
          exact ⟨⟨rfl, rfl⟩, fun _ _ => rfl⟩
    · rintro rfl
      cases ht
      rw [if_pos rfl, List.append_nil, titles, List.filterMap_eq_nil_iff]
      intro c hc
      obtain ⟨_, -, rfl⟩ := List.mem_map.1 hc
      rfl
  · cases h
    exact ⟨by simp, fun _ => rfl⟩

theorem plotBars_items {lib : Lib} {cfg : PlotConfig} {p : String} {c : Chain ℝ} {flip summary : Bool}
    {calls : List Call} {v : ℝ} (h : plotBars lib cfg p c flip summary = .ok (calls, v)) :
    items calls = [.hist c.name p flip] ∧ marks calls = [] ∧ (∀ c ∈ calls, ∀ d t, Ticks.step d t c = t) ∧
      (summary = false → titles calls = []) := by
  unfold plotBars at h
  simp only [bind_ok_iff] at h
  obtain ⟨⟨xs, ys⟩, -, hh, -, top, -, shade, hs, h⟩ := h
  rw [pure_ok_iff] at h
  cases h
  have hs' : (∀ c ∈ shade, isSetup c ∧ ∀ d t, Ticks.step d t c = t) ∧ (summary = false → titles shade = []) := by
    unfold barShadeIf at hs
    split at hs
    · exact barShade_setup hs
    · cases hs
      exact ⟨by simp, fun _ => rfl⟩
  obtain ⟨h1, h2⟩ := hs'
  obtain ⟨h3, h4⟩ := items_of_setup fun c hc => (h1 c hc).1
  refine ⟨?_, ?_, ?_, fun e => h2 e⟩
  · change _ :: items shade = _
    rw [h3]
  · exact h4
  · intro c hc d t
    rcases List.mem_cons.1 hc with rfl | hc
    · rfl
    · exact (h1 c hc).2 d t

/-- Calls that leave the ticks of both axes alone. -/
def keepsTicks (c : Call) : Prop := ∀ d t, Ticks.step d t c = t

theorem ticks_append (d : Dir) (a b : List Call) : ticks d (a ++ b) = b.foldl (Ticks.step d) (ticks d a) :=
  List.foldl_append ..

theorem foldl_keeps {d : Dir} {l : List Call} (h : ∀ c ∈ l, keepsTicks c) (t : Ticks) : l.foldl (Ticks.step d) t = t := by
  induction l generalizing t with
  | nil => rfl
  | cons c l ih => rw [List.foldl_cons, h c (by simp) d t, ih fun c hc => h c (by simp [hc])]

theorem titles_append (a b : List Call) : titles (a ++ b) = titles a ++ titles b := List.filterMap_append

theorem plotTruths_keeps (filled : List String) (truths : List (Truth ℝ)) (px py : Option String) :
    (∀ c ∈ plotTruths filled truths px py, keepsTicks c) ∧ titles (plotTruths filled truths px py) = [] := by
  have key : ∀ c ∈ plotTruths filled truths px py, (∃ x k, c = .vline x k) ∨ (∃ x k, c = .hline x k) ∨
      ∃ x y k, c = .marker x y k := by
    intro c hc
    obtain ⟨t, -, hc⟩ := List.mem_flatMap.1 hc
    simp only [truthCalls] at hc
    revert hc
    generalize px.bind (t.location.lookup ·) = vx
    generalize py.bind (t.location.lookup ·) = vy
    intro hc
    generalize t.marker = tm at hc
    cases vx <;> cases vy <;> cases tm <;>
      simp only [List.nil_append, List.append_nil, List.cons_append, List.mem_cons, List.not_mem_nil, or_false] at hc <;>
      first
        | exact .inl ⟨_, _, hc⟩
        | exact .inr (.inl ⟨_, _, hc⟩)
        | exact .inr (.inr ⟨_, _, _, hc⟩)
        | exact hc.elim (fun h => .inl ⟨_, _, h⟩) fun h => .inr (.inl ⟨_, _, h⟩)
  constructor
  · intro c hc d t
    rcases key c hc with ⟨_, _, rfl⟩ | ⟨_, _, rfl⟩ | ⟨_, _, _, rfl⟩ <;> rfl
  · rw [titles, List.filterMap_eq_nil_iff]
    intro c hc
    rcases key c hc with ⟨_, _, rfl⟩ | ⟨_, _, rfl⟩ | ⟨_, _, _, rfl⟩ <;> rfl

theorem histChains_items {lib : Lib} {cfg : PlotConfig} {p : String} {flip summary : Bool} {chains : List (Chain ℝ)}
    {m m' : Option ℝ} {calls : List Call} (h : histChains lib cfg p flip summary chains m = .ok (calls, m')) :
    items calls = histItems chains p flip ∧ marks calls = [] ∧ (∀ c ∈ calls, keepsTicks c) ∧
      (summary = false → titles calls = []) := by
  induction chains generalizing m calls with
  | nil => cases h; exact ⟨rfl, rfl, by simp, fun _ => rfl⟩
  | cons c cs ih =>
    rw [histChains] at h
    by_cases hc : (!(c.cfg .plotContour) || decide (p ∉ c.samples.columns)) = true
    · rw [if_pos hc] at h
      obtain ⟨h1, h2⟩ := ih h
      have hc' : (c.cfg .plotContour && decide (p ∈ c.samples.columns)) = false := by
        revert hc
        cases (c.cfg .plotContour : Bool) <;> simp
      exact ⟨by rw [h1, histItems, histItems, List.filter_cons, hc']; rfl, h2⟩
    · rw [if_neg hc] at h
      rw [bind_ok_iff] at h
      obtain ⟨⟨c1, v⟩, hb, h⟩ := h
      rw [bind_ok_iff] at h
      obtain ⟨⟨c2, m2⟩, hr, h⟩ := h
      rw [pure_ok_iff] at h
      cases h
      obtain ⟨h1, h2, h3, h4⟩ := plotBars_items hb
      obtain ⟨g1, g2, g3, g4⟩ := ih hr
      have hc' : (c.cfg .plotContour && decide (p ∈ c.samples.columns)) = true := by simpa using hc
      refine ⟨?_, ?_, ?_, ?_⟩
      · rw [items_append, h1, g1, histItems, histItems, List.filter_cons, hc']; rfl
      · rw [marks_append, h2, g2]; rfl
      · intro c hc
        rcases List.mem_append.1 hc with hc | hc
        · exact h3 c hc
        · exact g3 c hc
      · intro e
        rw [titles_append, h4 e, g4 e]; rfl

theorem surfaceChain_items {lib : Lib} {cfg : PlotConfig} {px py : String} {c : Chain ℝ} {calls : List Call}
    {bars : List String} (h : surfaceChain lib cfg px py c = .ok (calls, bars)) :
    items calls = surfaceItems [c] px py ∧ marks calls = [] ∧ (∀ c ∈ calls, keepsTicks c) ∧ titles calls = [] := by
  unfold surfaceChain at h
  by_cases hp : px ∉ c.plottingColumns ∨ py ∉ c.plottingColumns
  · rw [if_pos hp] at h
    cases h
    have hp' : ¬ (px ∈ c.plottingColumns ∧ py ∈ c.plottingColumns) := by tauto
    exact ⟨by rw [surfaceItems, List.filter_cons, decide_eq_false hp']; rfl, rfl, by simp, rfl⟩
  · rw [if_neg hp] at h
    have hp' : px ∈ c.plottingColumns ∧ py ∈ c.plottingColumns := by tauto
    simp only [bind_ok_iff] at h
    obtain ⟨⟨cloud, bars'⟩, h1, contour, h2, point, h3, h⟩ := h
    rw [pure_ok_iff] at h
    cases h
    have k1 : items cloud = (if c.cfg .plotCloud then [.cloud c.name px py] else []) ∧ marks cloud = [] ∧
        (∀ c ∈ cloud, keepsTicks c) ∧ titles cloud = [] := by
      unfold cloudCalls at h1
      split at h1 <;> rename_i hcl
      · simp only [bind_ok_iff, pure_ok_iff] at h1
        obtain ⟨r, hr, e⟩ := h1
        cases e
        simp only [plotCloud, bind_ok_iff, pure_ok_iff] at hr
        obtain ⟨x, -, y, -, s, -, cd, -, rfl⟩ := hr
        exact ⟨by rw [if_pos hcl]; rfl, rfl, by intro c hc; rw [List.mem_singleton.1 hc]; intro _ _; rfl, rfl⟩
      · cases h1; exact ⟨by rw [if_neg hcl]; rfl, rfl, by simp, rfl⟩
    have k2 : items contour = (if c.cfg .plotContour then [.contour c.name px py] else []) ∧ marks contour = [] ∧
        (∀ c ∈ contour, keepsTicks c) ∧ titles contour = [] := by
      unfold contourCalls at h2
      split at h2 <;> rename_i hcl
      · simp only [bind_ok_iff, pure_ok_iff] at h2
        obtain ⟨r, hr, rfl⟩ := h2
        simp only [plotContour, bind_ok_iff, pure_ok_iff] at hr
        obtain ⟨_, -, x, -, y, -, -, -, -, -, -, -, rfl⟩ := hr
        exact ⟨by rw [if_pos hcl]; rfl, rfl, by intro c hc; rw [List.mem_singleton.1 hc]; intro _ _; rfl, rfl⟩
      · cases h2; exact ⟨by rw [if_neg hcl]; rfl, rfl, by simp, rfl⟩
    have k3 : items point = (if c.cfg .plotPoint && hasPoint c px py then [.point c.name px py] else []) ∧
        marks point = [] ∧ (∀ c ∈ point, keepsTicks c) ∧ titles point = [] := by
      cases hpp : (c.cfg .plotPoint : Bool) with
      | false =>
        rw [pointCalls, hpp] at h3
        cases h3
        exact ⟨rfl, rfl, by simp, rfl⟩
      | true =>
        rw [pointCalls, hpp, if_pos rfl] at h3
        unfold plotPoint at h3
        simp only [bind_ok_iff] at h3
        obtain ⟨m, hm, h3⟩ := h3
        unfold hasPoint
        rw [hm]
        cases m with
        | none => cases h3; exact ⟨rfl, rfl, by simp, rfl⟩
        | some m =>
          have hb : (true && match (Except.ok (some m) : Res (Option (Chain.MaxPosterior ℝ))) with
              | .ok (some m) => (m.coordinate.lookup px).isSome && (m.coordinate.lookup py).isSome
              | _ => false) = ((m.coordinate.lookup px).isSome && (m.coordinate.lookup py).isSome) := by simp
          rw [hb]
          simp only at h3
          revert h3
          generalize m.coordinate.lookup px = vx
          generalize m.coordinate.lookup py = vy
          intro h3
          cases vx <;> cases vy <;> cases h3 <;>
            exact ⟨rfl, rfl, by first | (intro c hc; rw [List.mem_singleton.1 hc]; intro _ _; rfl) | simp, rfl⟩
    refine ⟨?_, ?_, ?_, ?_⟩
    · rw [items_append, items_append, k1.1, k2.1, k3.1, surfaceItems, List.filter_cons, decide_eq_true hp', if_pos rfl,
        List.filter_nil, List.flatMap_cons, List.flatMap_nil, List.append_nil]
    · rw [marks_append, marks_append, k1.2.1, k2.2.1, k3.2.1]; rfl
    · intro c hc
      rcases List.mem_append.1 hc with hc | hc
      · rcases List.mem_append.1 hc with hc | hc
        · exact k1.2.2.1 c hc
        · exact k2.2.2.1 c hc
      · exact k3.2.2.1 c hc
    · rw [titles_append, titles_append, k1.2.2.2, k2.2.2.2, k3.2.2.2]; rfl

theorem surfaceItems_cons (c : Chain ℝ) (cs : List (Chain ℝ)) (px py : String) :
    surfaceItems (c :: cs) px py = surfaceItems [c] px py ++ surfaceItems cs px py := by
  simp only [surfaceItems]
  rw [← List.flatMap_append, ← List.filter_append]
  rfl

theorem plotSurface_items {lib : Lib} {cfg : PlotConfig} {px py : String} {chains : List (Chain ℝ)} {calls : List Call}
    {bars : List String} (h : plotSurface lib cfg chains px py = .ok (calls, bars)) :
    items calls = surfaceItems chains px py ∧ marks calls = [] ∧ (∀ c ∈ calls, keepsTicks c) ∧ titles calls = [] := by
  simp only [plotSurface, bind_ok_iff, pure_ok_iff, Prod.mk.injEq] at h
  obtain ⟨rs, h, rfl, -⟩ := h
  replace h := mapM_ok_iff.1 h
  induction h with
  | nil => exact ⟨rfl, rfl, by simp, rfl⟩
  | @cons c r cs rs hr _ ih =>
    obtain ⟨h1, h2, h3, h4⟩ := surfaceChain_items (calls := r.1) (bars := r.2) hr
    obtain ⟨g1, g2, g3, g4⟩ := ih
    rw [List.flatMap_cons]
    refine ⟨?_, ?_, ?_, ?_⟩
    · rw [items_append, h1, g1, ← surfaceItems_cons]
    · rw [marks_append, h2, g2]; rfl
    · intro c hc
      rcases List.mem_append.1 hc with hc | hc
      · exact h3 c hc
      · exact g3 c hc
    · rw [titles_append, h4, g4]; rfl

/-- The three kinds of panels of `plot`: blank, two columns, histogram. -/
theorem plot_cases {lib : Lib} {cfg : PlotConfig} {truths : List (Truth ℝ)} {b : PlottingBase} {fig : Fig}
    (h : plotBase lib cfg truths b = .ok fig) {i j : Nat} {calls : List Call} (hc : ((i, j), calls) ∈ fig.panels) :
    let k := if cfg.plotHists then 0 else 1
    let n := b.columns.length - k
    i < n ∧ j < n ∧
    (i < j ∧ calls = [.frameOff, .noTicks .x, .noTicks .y] ∨
     j < i + k ∧ j ≤ i ∧ (∃ px py s d bars, b.columns[j]? = some px ∧ b.columns[i + k]? = some py ∧
       trianglePanel cfg b n i j py px = .ok s ∧ plotSurface lib cfg b.chains px py = .ok (d, bars) ∧
       calls = s ++ (d ++ plotTruths lib.filled truths (some px) (some py))) ∨
     cfg.plotHists = true ∧ i = j ∧ (∃ p s r, b.columns[i]? = some p ∧ trianglePanel cfg b n i j p p = .ok s ∧
       let flip := cfg.flip && decide (b.columns.length = 2 ∧ i = 1)
       histChains lib cfg p flip (cfg.summarise && decide ((b.chains.filter fun c => c.cfg .plotContour).length = 1) &&
         !decide (p ∈ b.blind)) b.chains none = .ok r ∧
       calls = s ++ (histTruths lib truths flip p ++ r.1 ++ topLim flip r.2))) := by
  intro k n
  have hk : rowShift cfg = k := rfl
  obtain ⟨hn, hkeys, hp⟩ := plot_panels h
  rw [hk] at hn hkeys hp
  obtain ⟨hi, hj, s, d, bars, hs, hd, rfl⟩ := hp _ _ hc
  simp only at hi hj hs hd
  refine ⟨hi, hj, ?_⟩
  by_cases hij : i < j
  · rw [trianglePanel, if_pos hij] at hs
    rw [drawPanel, if_pos hij] at hd
    cases hs; cases hd; exact .inl ⟨hij, rfl⟩
  have hk1 : k = 0 ∧ cfg.plotHists = true ∨ k = 1 ∧ cfg.plotHists = false := by
    change (if cfg.plotHists then 0 else 1) = 0 ∧ _ ∨ (if cfg.plotHists then 0 else 1) = 1 ∧ _
    cases cfg.plotHists <;> simp
  have hx : b.columns[j]? = some b.columns[j] := List.getElem?_eq_getElem (by omega)
  have hy : b.columns[i + k]? = some b.columns[i + k] := List.getElem?_eq_getElem (by omega)
  rw [List.getD_eq_getElem?_getD, List.getD_eq_getElem?_getD, hx, hy, Option.getD_some, Option.getD_some] at hs hd
  rw [drawPanel, if_neg hij] at hd
  by_cases hij2 : (cfg.plotHists && decide (i = j)) = true
  · obtain ⟨hh, e⟩ : cfg.plotHists = true ∧ i = j := by simpa using hij2
    subst e
    rw [if_pos hij2, bind_ok_iff] at hd
    obtain ⟨c1, h1, h2⟩ := hd
    rw [pure_ok_iff] at h2
    cases h2
    have hk0 : k = 0 := if_pos hh
    have e3 : (decide (b.columns.length = 2) && cfg.plotHists && cfg.flip && decide (i = b.columns.length - k - 1)) =
        (cfg.flip && decide (b.columns.length = 2 ∧ i = 1)) := by
      rw [hh, hk0]
      cases cfg.flip
      · simp
      · by_cases h2 : b.columns.length = 2
        · simp [h2]
        · simp [h2]
    rw [histPanel, bind_ok_iff] at h1
    obtain ⟨r, h3, h4⟩ := h1
    rw [pure_ok_iff] at h4
    subst h4
    have e4 : b.columns[i + k]'(by omega) = b.columns[i]'(by omega) := by simp [hk0]
    rw [e3, e4] at h3
    rw [e4] at hs
    refine .inr (.inr ⟨hh, rfl, _, s, r, hx, hs, h3, ?_⟩)
    rw [e3, e4]
  · rw [if_neg hij2, bind_ok_iff] at hd
    obtain ⟨⟨c1, bars1⟩, h1, h2⟩ := hd
    rw [pure_ok_iff] at h2
    cases h2
    refine .inr (.inl ⟨?_, by omega, _, _, s, c1, bars, hx, hy, hs, h1, rfl⟩)
    rcases hk1 with ⟨e0, e⟩ | ⟨e0, e⟩
    · have : i ≠ j := by
        rintro rfl
        simp [e] at hij2
      omega
    · omega

theorem topLim_setup (flip : Bool) (m : Option ℝ) : (∀ c ∈ topLim flip m, isSetup c ∧ keepsTicks c) ∧ titles (topLim flip m) = [] := by
  cases m with
  | none => exact ⟨by simp [topLim], rfl⟩
  | some m => exact ⟨by intro c hc; rw [List.mem_singleton.1 hc]; exact ⟨⟨rfl, rfl⟩, fun _ _ => rfl⟩, rfl⟩

theorem step_noLog {d : Dir} {c : Call} (h : c ≠ .logScale d) (t : Ticks) (ht : t.minor = false) :
    (Ticks.step d t c).minor = false := by
  cases c <;> simp only [Ticks.step] <;> try exact ht
  all_goals split
  all_goals first | exact ht | (rename_i e; subst e; exact absurd rfl h)

/-- Without a logarithmic scale there are no minor ticks. -/
theorem ticks_noLog {d : Dir} {calls : List Call} (h : .logScale d ∉ calls) : (ticks d calls).minor = false := by
  unfold ticks
  generalize ht : (⟨true, false⟩ : Ticks) = t
  have hm : t.minor = false := by rw [← ht]
  clear ht
  induction calls generalizing t with
  | nil => exact hm
  | cons c cs ih =>
    rw [List.foldl_cons]
    exact ih (fun hc => h (by simp [hc])) _ (step_noLog (fun e => h (by simp [e])) t hm)

/-- Removed ticks stay removed. -/
theorem ticks_removed {d : Dir} (pre : List Call) {post : List Call} (h : ∀ c ∈ post, Ticks.step d ⟨false, false⟩ c = ⟨false, false⟩ ∧
    Ticks.step d ⟨false, true⟩ c = ⟨false, true⟩) : (ticks d (pre ++ .noTicks d :: post)).major = false := by
  rw [ticks_append, List.foldl_cons]
  have : ∀ t : Ticks, t.major = false → (post.foldl (Ticks.step d) t).major = false := by
    induction post with
    | nil => intro t ht; exact ht
    | cons c cs ih =>
      intro t ht
      rw [List.foldl_cons]
      refine ih (fun c hc => h c (by simp [hc])) _ ?_
      obtain ⟨h1, h2⟩ := h c (by simp)
      obtain ⟨m, n⟩ := t
      cases n
      · simp only at ht; subst ht; rw [h1]
      · simp only at ht; subst ht; rw [h2]
  exact this _ (by simp [Ticks.step])

theorem keepsTicks_removed {c : Call} (h : keepsTicks c) (d : Dir) : Ticks.step d ⟨false, false⟩ c = ⟨false, false⟩ ∧
    Ticks.step d ⟨false, true⟩ c = ⟨false, true⟩ := ⟨h d _, h d _⟩

theorem keepsTicks_noLog {c : Call} (h : keepsTicks c) (d : Dir) : c ≠ .logScale d := by
  rintro rfl
  have := h d ⟨false, false⟩
  simp [Ticks.step] at this

theorem plotWalk_setup {chain label : String} {values : List ℝ} {extents : Option (Option (ℝ × ℝ))} {log : Bool}
    {calls : List Call} (h : plotWalk chain label values extents log = .ok calls) :
    items calls = [] ∧ marks calls = [] ∧ titles calls = [] ∧ (log = false → .logScale .y ∉ calls) := by
  simp only [plotWalk, bind_ok_iff, pure_ok_iff, ensure_ok_iff] at h
  obtain ⟨lim, hlim, -, -, rfl⟩ := h
  have hl : lim = [] ∨ ∃ lo hi, lim = [.lim .y lo hi] := by
    cases extents with
    | none => cases hlim; exact .inl rfl
    | some e =>
      simp only [walkLim, bind_ok_iff, pure_ok_iff] at hlim
      obtain ⟨c, hc, rfl⟩ := hlim
      obtain ⟨lo, hi, rfl, -⟩ := setLim_setup hc
      exact .inr ⟨lo, hi, rfl⟩
  refine ⟨?_, ?_, ?_, ?_⟩
  · rcases hl with rfl | ⟨lo, hi, rfl⟩ <;> cases log <;> rfl
  · rcases hl with rfl | ⟨lo, hi, rfl⟩ <;> cases log <;> rfl
  · rcases hl with rfl | ⟨lo, hi, rfl⟩ <;> cases log <;> rfl
  · rintro rfl
    rcases hl with rfl | ⟨lo, hi, rfl⟩ <;> simp

theorem flatten_walks {α : Type} {f : α → Res (List Call)} {l : List α} {walks : List (List Call)}
    (h : l.mapM f = .ok walks) {P : List Call → Prop} (h0 : P []) (happ : ∀ a b, P a → P b → P (a ++ b))
    (hf : ∀ a ∈ l, ∀ r, f a = .ok r → P r) : P walks.flatten := by
  replace h := mapM_ok_iff.1 h
  induction h with
  | nil => exact h0
  | cons hr _ ih =>
    rw [List.flatten_cons]
    exact happ _ _ (hf _ (by simp) _ hr) (ih fun a ha => hf a (by simp [ha]))

/-- What a panel of walks draws. -/
theorem walkPanel_setup {cfg : PlotConfig} {b : PlottingBase} {truths : List (Truth ℝ)} {p : String} {calls : List Call}
    (h : walkPanel cfg b truths p = .ok calls) :
    items calls = [] ∧ marks calls = dueMarks truths none (some p) ∧ titles calls = [] ∧
      (p ∉ b.logScales → .logScale .y ∉ calls) ∧ (p ∈ b.blind → ∃ pre, calls = pre ++ [.noTicks .y]) := by
  simp only [walkPanel, bind_ok_iff, pure_ok_iff] at h
  obtain ⟨walks, hw, rfl⟩ := h
  obtain ⟨h1, h2, h3, h4⟩ : items walks.flatten = [] ∧ marks walks.flatten = [] ∧ titles walks.flatten = [] ∧
      (p ∉ b.logScales → .logScale .y ∉ walks.flatten) := by
    refine flatten_walks hw (P := fun calls => items calls = [] ∧ marks calls = [] ∧ titles calls = [] ∧
      (p ∉ b.logScales → .logScale .y ∉ calls)) ⟨rfl, rfl, rfl, by simp⟩ ?_ ?_
    · rintro a b ⟨a1, a2, a3, a4⟩ ⟨b1, b2, b3, b4⟩
      refine ⟨by rw [items_append, a1, b1]; rfl, by rw [marks_append, a2, b2]; rfl, by rw [titles_append, a3, b3]; rfl, ?_⟩
      intro hp
      rw [List.mem_append]
      exact fun h => h.elim (a4 hp) (b4 hp)
    · intro c _ r hr
      split at hr
      · simp only [bind_ok_iff] at hr
        obtain ⟨v, -, hr⟩ := hr
        obtain ⟨k1, k2, k3, k4⟩ := plotWalk_setup hr
        exact ⟨k1, k2, k3, fun hp => k4 (decide_eq_false hp)⟩
      · cases hr
        exact ⟨rfl, rfl, rfl, by simp⟩
  have ht : items (truths.flatMap (walkTruth p)) = [] ∧ marks (truths.flatMap (walkTruth p)) = dueMarks truths none (some p) ∧
      titles (truths.flatMap (walkTruth p)) = [] ∧ .logScale .y ∉ truths.flatMap (walkTruth p) := by
    induction truths with
    | nil => exact ⟨rfl, rfl, rfl, by simp⟩
    | cons t ts ih =>
      obtain ⟨i1, i2, i3, i4⟩ := ih
      have k : items (walkTruth p t) = [] ∧ marks (walkTruth p t) = dueMarks [t] none (some p) ∧ titles (walkTruth p t) = [] ∧
          .logScale .y ∉ walkTruth p t := by
        unfold walkTruth dueMarks
        simp only [Option.bind_none, Option.bind_some, List.flatMap_cons, List.flatMap_nil, List.append_nil]
        cases t.location.lookup p
        · exact ⟨rfl, rfl, rfl, by simp⟩
        · exact ⟨rfl, rfl, rfl, by simp⟩
      obtain ⟨k1, k2, k3, k4⟩ := k
      rw [List.flatMap_cons]
      refine ⟨by rw [items_append, k1, i1]; rfl, ?_, by rw [titles_append, k3, i3]; rfl, ?_⟩
      · rw [marks_append, k2, i2]
        simp [dueMarks]
      · rw [List.mem_append]
        exact fun h => h.elim k4 i4
  obtain ⟨t1, t2, t3, t4⟩ := ht
  have e1 : items (if p ∈ b.blind then [Call.noTicks .y] else []) = [] := by split <;> rfl
  have e2 : marks (if p ∈ b.blind then [Call.noTicks .y] else []) = [] := by split <;> rfl
  have e3 : titles (if p ∈ b.blind then [Call.noTicks .y] else []) = [] := by split <;> rfl
  have e4 : .logScale .y ∉ (if p ∈ b.blind then [Call.noTicks .y] else []) := by split <;> simp
  refine ⟨?_, ?_, ?_, ?_, ?_⟩
  · rw [items_append, items_append, h1, t1, e1]; rfl
  · rw [marks_append, marks_append, h2, t2, e2, List.append_nil]; rfl
  · rw [titles_append, titles_append, h3, t3, e3]; rfl
  · intro hp
    rw [List.mem_append, List.mem_append]
    rintro ((h | h) | h)
    · exact h4 hp h
    · exact t4 h
    · exact e4 h
  · intro hp
    exact ⟨_, by rw [if_pos hp]⟩

/-- The panels of the posterior and of the weights draw no marks. -/
theorem extraPanel_setup {cfg : PlotConfig} {b : PlottingBase} {lw : Bool} {calls : List Call}
    (h : posteriorPanel cfg b = .ok calls ∨ weightPanel cfg b lw = .ok calls) : marks calls = [] := by
  rcases h with h | h
  · simp only [posteriorPanel, bind_ok_iff, pure_ok_iff] at h
    obtain ⟨walks, hw, rfl⟩ := h
    refine flatten_walks hw (P := fun calls => marks calls = []) rfl (fun a b ha hb => by rw [marks_append, ha, hb]; rfl) ?_
    intro c _ r hr
    split at hr
    · cases hr; rfl
    · simp only [bind_ok_iff] at hr
      obtain ⟨_, -, hr⟩ := hr
      exact (plotWalk_setup hr).2.1
  · simp only [weightPanel, bind_ok_iff, pure_ok_iff] at h
    obtain ⟨walks, hw, rfl⟩ := h
    refine flatten_walks hw (P := fun calls => marks calls = []) rfl (fun a b ha hb => by rw [marks_append, ha, hb]; rfl) ?_
    intro c _ r hr
    rw [bind_ok_iff] at hr
    obtain ⟨_, -, hr⟩ := hr
    exact (plotWalk_setup hr).2.1

theorem distChains_items {lib : Lib} {cfg : PlotConfig} {p : String} {summary : Bool} {chains : List (Chain ℝ)}
    {m m' : Option ℝ} {calls : List Call} (h : distChains lib cfg p summary chains m = .ok (calls, m')) :
    marks calls = [] ∧ (∀ c ∈ calls, keepsTicks c) ∧ (summary = false → titles calls = []) := by
  induction chains generalizing m calls with
  | nil => cases h; exact ⟨rfl, by simp, fun _ => rfl⟩
  | cons c cs ih =>
    rw [distChains] at h
    by_cases hc : (!(c.cfg .plotContour) || decide (p ∉ c.plottingColumns)) = true
    · rw [if_pos hc] at h
      exact ih h
    · rw [if_neg hc, bind_ok_iff] at h
      obtain ⟨⟨c1, v⟩, hb, h⟩ := h
      rw [bind_ok_iff] at h
      obtain ⟨⟨c2, m2⟩, hr, h⟩ := h
      rw [pure_ok_iff] at h
      cases h
      obtain ⟨-, h2, h3, h4⟩ := plotBars_items hb
      obtain ⟨g2, g3, g4⟩ := ih hr
      refine ⟨by rw [marks_append, h2, g2]; rfl, ?_, fun e => by rw [titles_append, h4 e, g4 e]; rfl⟩
      intro c hc
      rcases List.mem_append.1 hc with hc | hc
      · exact h3 c hc
      · exact g3 c hc

/-- What a panel of distributions draws. -/
theorem distPanel_setup {lib : Lib} {cfg : PlotConfig} {b : PlottingBase} {truths : List (Truth ℝ)} {p : String}
    {calls : List Call} (h : distPanel lib cfg b truths p = .ok calls) :
    marks calls = dueMarks truths none (some p) ∧
    (p ∈ b.blind → titles calls = [] ∧ (ticks .x calls).major = false ∧ (ticks .x calls).minor = decide (p ∈ b.logScales)) := by
  simp only [distPanel, bind_ok_iff, pure_ok_iff] at h
  obtain ⟨xlim, hx, r, hr, ylim, hy, rfl⟩ := h
  obtain ⟨lo, hi, rfl, -⟩ := setLim_setup hx
  obtain ⟨h1, h2, h3⟩ := distChains_items (calls := r.1) (m' := r.2) hr
  obtain ⟨l, rfl⟩ : ∃ v, ylim = .lim .y 0 v := by
    unfold distYlim at hy
    split at hy <;> cases hy
    exact ⟨_, rfl⟩
  refine ⟨?_, fun hb => ⟨?_, ?_⟩⟩
  · simp only [marks_append, h1, (plotTruths_marks ..).2]
    by_cases hl : p ∈ b.logScales <;> by_cases hb : p ∈ b.blind <;> simp [hl, hb, marks, markOf, List.filterMap_cons]
  · simp only [titles_append, (plotTruths_keeps ..).2, h3 (by simp [hb])]
    by_cases hl : p ∈ b.logScales <;> simp [hl, hb, titles]
  · have hk : ∀ t, (r.1 ++ plotTruths lib.filled truths none (some p) ++ [Call.lim .y 0 l, .axisLabel .x p]).foldl
        (Ticks.step .x) t = t := by
      intro t
      rw [List.foldl_append, List.foldl_append, foldl_keeps h2, foldl_keeps (plotTruths_keeps ..).1]
      rfl
    have : ticks .x ([.noTicks .y] ++ (if p ∈ b.logScales then [.logScale .x] else []) ++
        [if p ∈ b.blind then .noTicks .x else if p ∈ b.logScales then .logLocator .x else .maxNLocator .x] ++
        [.lim .x lo hi] ++ r.1 ++ plotTruths lib.filled truths none (some p) ++ [.lim .y 0 l, .axisLabel .x p]) =
        ⟨false, decide (p ∈ b.logScales)⟩ := by
      rw [List.append_assoc, List.append_assoc, ← List.append_assoc r.1, ticks_append, hk, if_pos hb]
      by_cases hl : p ∈ b.logScales <;> simp [hl, ticks, Ticks.step]
    rw [this]
    exact ⟨rfl, rfl⟩

theorem summaryContent_setup {lib : Lib} {cfg : PlotConfig} {errorbar : Bool} {c : Chain ℝ} {p : String}
    {r : List Call × Option ℝ} (h : summaryContent lib cfg errorbar c p = .ok r) :
    marks r.1 = [] ∧ titles r.1 = [] ∧ ∀ c ∈ r.1, keepsTicks c := by
  unfold summaryContent at h
  by_cases h1 : p ∉ c.dataColumns
  · rw [if_pos h1] at h
    cases h
    exact ⟨rfl, rfl, by simp⟩
  · rw [if_neg h1] at h
    cases errorbar with
    | true =>
      rw [if_pos rfl, bind_ok_iff] at h
      obtain ⟨b, -, h⟩ := h
      by_cases h2 : b.allNone = true
      · rw [if_pos h2] at h
        cases h
        exact ⟨rfl, rfl, by simp⟩
      · rw [if_neg h2] at h
        revert h
        cases b.lower <;> cases b.center <;> cases b.upper <;> intro h <;> cases h <;>
          exact ⟨rfl, rfl, by first | (intro c hc; rw [List.mem_singleton.1 hc]; intro _ _; rfl) | simp⟩
    | false =>
      rw [if_neg Bool.false_ne_true, bind_ok_iff] at h
      obtain ⟨v, hv, h⟩ := h
      rw [pure_ok_iff] at h
      subst h
      obtain ⟨-, g2, g3, g4⟩ := plotBars_items (calls := v.1) (v := v.2) hv
      exact ⟨g2, g4 rfl, g3⟩

theorem summaryTruth_setup (truths : List (Truth ℝ)) (p : String) :
    marks (truths.flatMap (summaryTruth p)) = dueMarks truths (some p) none ∧ titles (truths.flatMap (summaryTruth p)) = [] ∧
      ∀ c ∈ truths.flatMap (summaryTruth p), keepsTicks c := by
  induction truths with
  | nil => exact ⟨rfl, rfl, by simp⟩
  | cons t ts ih =>
    obtain ⟨i1, i2, i3⟩ := ih
    have k : marks (summaryTruth p t) = dueMarks [t] (some p) none ∧ titles (summaryTruth p t) = [] ∧
        ∀ c ∈ summaryTruth p t, keepsTicks c := by
      unfold summaryTruth dueMarks
      simp only [Option.bind_none, Option.bind_some, List.flatMap_cons, List.flatMap_nil, List.append_nil]
      cases t.location.lookup p
      · exact ⟨rfl, rfl, by simp⟩
      · exact ⟨rfl, rfl, by intro c hc; rw [List.mem_singleton.1 hc]; intro _ _; rfl⟩
    obtain ⟨k1, k2, k3⟩ := k
    rw [List.flatMap_cons]
    refine ⟨?_, by rw [titles_append, k2, i2]; rfl, ?_⟩
    · rw [marks_append, k1, i1]
      simp [dueMarks]
    · intro c hc
      rcases List.mem_append.1 hc with hc | hc
      · exact k3 c hc
      · exact i3 c hc

/-- What a cell of the summary plot draws. -/
theorem summaryCell_setup {lib : Lib} {cfg : PlotConfig} {b : PlottingBase} {truths : List (Truth ℝ)} {errorbar : Bool}
    {i : Nat} {c : Chain ℝ} {p : String} {cell : List Call × Option ℝ}
    (h : summaryCell lib cfg b truths errorbar i c p = .ok cell) :
    marks cell.1 = dueMarks truths (some p) none ∧ titles cell.1 = (if i = 0 then [getLabel cfg.labels p] else []) ∧
    ticks .x cell.1 = if p ∈ b.logScales then ⟨true, true⟩ else ⟨!(decide (i < b.chains.length - 1) || decide (p ∈ b.blind)), false⟩ := by
  simp only [summaryCell, bind_ok_iff, pure_ok_iff] at h
  obtain ⟨xlim, hx, r, hr, rfl⟩ := h
  obtain ⟨lo, hi, rfl, -⟩ := setLim_setup hx
  obtain ⟨h1, h2, h3⟩ := summaryContent_setup hr
  obtain ⟨t1, t2, t3⟩ := summaryTruth_setup truths p
  refine ⟨?_, ?_, ?_⟩
  · simp only [marks_append, h1, t1]
    by_cases hl : p ∈ b.logScales <;> by_cases hi0 : i = 0 <;>
      by_cases hb : (decide (i < b.chains.length - 1) || decide (p ∈ b.blind)) = true <;> simp [hl, hb, hi0, marks, markOf, List.filterMap_cons]
  · simp only [titles_append, h2, t2]
    by_cases hl : p ∈ b.logScales <;> by_cases hi0 : i = 0 <;>
      by_cases hb : (decide (i < b.chains.length - 1) || decide (p ∈ b.blind)) = true <;> simp [hl, hb, hi0, titles]
  · rw [ticks_append, ticks_append, foldl_keeps h3, foldl_keeps t3]
    generalize (decide (i < b.chains.length - 1) || decide (p ∈ b.blind)) = q
    by_cases hl : p ∈ b.logScales <;> by_cases hi0 : i = 0 <;> cases q <;> simp [hl, hi0, ticks, Ticks.step]

end CC
