import Verif.Props.PanelRanges

/-! # Lemmas: drawing leaves scales and labels alone -/

namespace CC
open Spec

/-- The call draws, writes a title or sets a range; it sets neither scale nor label nor ticks. -/
def isDraw : Call → Bool
  | .lim .. | .title .. | .marginal .. | .shade .. | .cloud .. | .contour .. | .point .. | .vline .. | .hline ..
  | .marker .. | .errorbar .. => true
  | _ => false

theorem plotTruths_draw (filled : List String) (truths : List (Truth ℝ)) (px py : Option String) :
    ∀ c ∈ plotTruths filled truths px py, isDraw c = true := by
  intro c hc
  obtain ⟨t, -, hc⟩ := List.mem_flatMap.1 hc
  simp only [truthCalls] at hc
  revert hc
  generalize px.bind (t.location.lookup ·) = vx
  generalize py.bind (t.location.lookup ·) = vy
  intro hc
  generalize t.marker = tm at hc
  cases vx <;> cases vy <;> cases tm <;>
    simp only [List.nil_append, List.append_nil, List.cons_append, List.mem_cons, List.not_mem_nil, or_false] at hc <;>
    first
      | (subst hc; rfl)
      | (rcases hc with rfl | rfl <;> rfl)

theorem histTruths_draw (lib : Lib) (truths : List (Truth ℝ)) (flip : Bool) (p : String) :
    ∀ c ∈ histTruths lib truths flip p, isDraw c = true := by
  cases flip
  · exact plotTruths_draw _ _ _ _
  · exact plotTruths_draw _ _ _ _

theorem plotBars_draw {lib : Lib} {cfg : PlotConfig} {p : String} {c : Chain ℝ} {flip summary : Bool}
    {r : List Call × ℝ} (h : plotBars lib cfg p c flip summary = .ok r) : ∀ c ∈ r.1, isDraw c = true := by
  unfold plotBars at h
  simp only [bind_ok_iff] at h
  obtain ⟨⟨xs, ys⟩, -, hh, -, top, -, shade, hs, h⟩ := h
  rw [pure_ok_iff] at h
  subst h
  intro c' hc
  rcases List.mem_cons.1 hc with rfl | hc
  · rfl
  unfold barShadeIf at hs
  split at hs
  · unfold barShade at hs
    simp only [bind_ok_iff] at hs
    obtain ⟨b, -, hs⟩ := hs
    split at hs
    · simp only [bind_ok_iff] at hs
      obtain ⟨⟨ivs, s⟩, -, a, -, z, -, -, -, title, ht, hs⟩ := hs
      rw [pure_ok_iff] at hs
      subst hs
      rcases List.mem_append.1 hc with hc | hc
      · obtain ⟨_, -, rfl⟩ := List.mem_map.1 hc
        rfl
      · split at hc
        · cases hc
        · rw [List.mem_singleton.1 hc]
          rfl
    · cases hs; cases hc
  · cases hs; cases hc

theorem histChains_draw {lib : Lib} {cfg : PlotConfig} {p : String} {flip summary : Bool} {chains : List (Chain ℝ)}
    {m : Option ℝ} {r : List Call × Option ℝ} (h : histChains lib cfg p flip summary chains m = .ok r) :
    ∀ c ∈ r.1, isDraw c = true := by
  induction chains generalizing m r with
  | nil => cases h; simp
  | cons c cs ih =>
    rw [histChains] at h
    split at h
    · exact ih h
    · simp only [bind_ok_iff] at h
      obtain ⟨bars, hb, r', hr, h⟩ := h
      rw [pure_ok_iff] at h
      subst h
      intro x hx
      rcases List.mem_append.1 hx with hx | hx
      · exact plotBars_draw hb x hx
      · exact ih hr x hx

theorem distChains_draw {lib : Lib} {cfg : PlotConfig} {p : String} {summary : Bool} {chains : List (Chain ℝ)}
    {m : Option ℝ} {r : List Call × Option ℝ} (h : distChains lib cfg p summary chains m = .ok r) :
    ∀ c ∈ r.1, isDraw c = true := by
  induction chains generalizing m r with
  | nil => cases h; simp
  | cons c cs ih =>
    rw [distChains] at h
    split at h
    · exact ih h
    · simp only [bind_ok_iff] at h
      obtain ⟨bars, hb, r', hr, h⟩ := h
      rw [pure_ok_iff] at h
      subst h
      intro x hx
      rcases List.mem_append.1 hx with hx | hx
      · exact plotBars_draw hb x hx
      · exact ih hr x hx

theorem topLim_draw (flip : Bool) (m : Option ℝ) : ∀ c ∈ topLim flip m, isDraw c = true := by
  cases m with
  | none => simp [topLim]
  | some m =>
    intro c hc
    rw [topLim, List.mem_singleton] at hc
    subst hc; rfl

theorem surfaceChain_draw {lib : Lib} {cfg : PlotConfig} {px py : String} {c : Chain ℝ} {r : List Call × List String}
    (h : surfaceChain lib cfg px py c = .ok r) : ∀ c ∈ r.1, isDraw c = true := by
  unfold surfaceChain at h
  split at h
  · cases h; simp
  simp only [bind_ok_iff] at h
  obtain ⟨⟨cloud, bars'⟩, h1, contour, h2, point, h3, h⟩ := h
  rw [pure_ok_iff] at h
  subst h
  intro x hx
  rcases List.mem_append.1 hx with hx | hx
  · rcases List.mem_append.1 hx with hx | hx
    · unfold cloudCalls at h1
      split at h1
      · simp only [bind_ok_iff, pure_ok_iff] at h1
        obtain ⟨r, hr, e⟩ := h1
        cases e
        simp only [plotCloud, bind_ok_iff, pure_ok_iff] at hr
        obtain ⟨x, -, y, -, s, -, cd, -, rfl⟩ := hr
        rw [List.mem_singleton.1 hx]
        rfl
      · cases h1; cases hx
    · unfold contourCalls at h2
      split at h2
      · simp only [bind_ok_iff, pure_ok_iff] at h2
        obtain ⟨r, hr, rfl⟩ := h2
        simp only [plotContour, bind_ok_iff, pure_ok_iff] at hr
        obtain ⟨_, -, x, -, y, -, -, -, -, -, -, -, rfl⟩ := hr
        rw [List.mem_singleton.1 hx]
        rfl
      · cases h2; cases hx
  · unfold pointCalls at h3
    split at h3
    · simp only [plotPoint, bind_ok_iff] at h3
      obtain ⟨m, -, h3⟩ := h3
      cases m with
      | none => cases h3; cases hx
      | some m =>
        simp only at h3
        revert h3
        generalize m.coordinate.lookup px = vx
        generalize m.coordinate.lookup py = vy
        intro h3
        cases vx <;> cases vy <;> cases h3
        · cases hx
        · cases hx
        · cases hx
        · rw [List.mem_singleton.1 hx]; rfl
    · cases h3; cases hx

theorem plotSurface_draw {lib : Lib} {cfg : PlotConfig} {px py : String} {chains : List (Chain ℝ)}
    {r : List Call × List String} (h : plotSurface lib cfg chains px py = .ok r) : ∀ c ∈ r.1, isDraw c = true := by
  simp only [plotSurface, bind_ok_iff, pure_ok_iff] at h
  obtain ⟨rs, h, rfl⟩ := h
  intro c hc
  obtain ⟨r, hr, hc⟩ := List.mem_flatMap.1 hc
  obtain ⟨ch, -, hch⟩ := mapM_ok_mem_right h hr
  exact surfaceChain_draw hch c hc

theorem summaryContent_draw {lib : Lib} {cfg : PlotConfig} {errorbar : Bool} {c : Chain ℝ} {p : String}
    {r : List Call × Option ℝ} (h : summaryContent lib cfg errorbar c p = .ok r) : ∀ c ∈ r.1, isDraw c = true := by
  unfold summaryContent at h
  split at h
  · cases h; simp
  split at h
  · simp only [bind_ok_iff] at h
    obtain ⟨b, -, h⟩ := h
    split at h
    · cases h; simp
    · split at h
      · cases h
        intro x hx
        rw [List.mem_singleton.1 hx]; rfl
      · cases h
      · cases h; simp
  · simp only [bind_ok_iff, pure_ok_iff] at h
    obtain ⟨r', hr, rfl⟩ := h
    exact plotBars_draw hr

theorem summaryTruth_draw (truths : List (Truth ℝ)) (p : String) :
    ∀ c ∈ truths.flatMap (summaryTruth p), isDraw c = true := by
  intro c hc
  obtain ⟨t, -, hc⟩ := List.mem_flatMap.1 hc
  unfold summaryTruth at hc
  split at hc
  · cases hc
  · rw [List.mem_singleton.1 hc]; rfl

end CC
