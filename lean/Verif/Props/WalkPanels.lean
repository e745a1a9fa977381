import Verif.Props.Thinning
import Verif.Props.Axes
import Verif.Props.Walks

/-! # C86: what the panels of `plot_walks` show, and over which steps -/

namespace CC
open Spec

/-- The panel shows these walks, one for each of the chains, in order, and is labelled accordingly. -/
def Spec.WalksOf (chains : List (Chain ℝ)) (label : String) (quantity : Chain ℝ → List ℝ → Prop) (calls : List Call) : Prop :=
  List.Forall₂ (fun c w => w.1 = c.name ∧ ∃ data, quantity c data ∧ Shown data w.2) chains (calls.filterMap walkOf) ∧
    axisTexts .y calls = List.replicate chains.length label

/-- The log posterior relative to its greatest value. -/
def Spec.RelativePosterior (c : Chain ℝ) (data : List ℝ) : Prop :=
  ∃ l m, c.logPosterior = some l ∧ m ∈ l ∧ (∀ x ∈ l, x ≤ m) ∧ data = l.map fun x => x - m

/-- The weights, or their decimal logarithms. -/
def Spec.WeightValues (log : Bool) (c : Chain ℝ) (data : List ℝ) : Prop :=
  ∃ l, c.weights = .ok l ∧ data.length = l.length ∧
    ∀ (i : Nat) w d, l[i]? = some w → data[i]? = some d → if log then 0 < w → (10 : ℝ) ^ d = w else d = w

/-- The values of a parameter. -/
def Spec.ParameterValues (p : String) (c : Chain ℝ) (data : List ℝ) : Prop := c.samples.get p = .ok data

theorem posteriorPanel_shows {cfg : PlotConfig} {b : PlottingBase} {calls : List Call} (h : posteriorPanel cfg b = .ok calls) :
    WalksOf (b.chains.filter fun c => c.logPosterior.isSome) (nameOf cfg.labels "$\\log(P)$") RelativePosterior calls := by
  refine ⟨((C61_extra cfg b false calls).1 h).imp ?_, ?_⟩
  · rintro c w ⟨h1, l, m, h2, h3, h4, h5⟩
    exact ⟨h1, _, ⟨l, m, h2, h3, h4, rfl⟩, h5⟩
  · simp only [posteriorPanel, bind_ok_iff, pure_ok_iff] at h
    obtain ⟨walks, hw, rfl⟩ := h
    obtain ⟨-, -, -, k⟩ := walks_axes hw (shown := fun c => c.logPosterior.isSome) (log := false)
      (label := getLabel cfg.labels "$\\log(P)$") (by
        intro c _ r hr
        cases hl : c.logPosterior with
        | none =>
          rw [hl] at hr
          cases hr
          simp [LogAxis, axisTexts]
        | some l =>
          rw [hl] at hr
          simp only [bind_ok_iff] at hr
          obtain ⟨m, -, hr⟩ := hr
          simpa using plotWalk_axes hr)
    rw [k, getLabel_nameOf]

theorem weightPanel_shows {cfg : PlotConfig} {b : PlottingBase} {lw : Bool} {calls : List Call}
    (h : weightPanel cfg b lw = .ok calls) :
    WalksOf b.chains (nameOf cfg.labels (if lw then "$\\log_{10}$Weight" else "Weight")) (WeightValues lw) calls := by
  refine ⟨((C61_extra cfg b lw calls).2 h).imp ?_, ?_⟩
  · rintro c w ⟨h1, l, h2, h3⟩
    refine ⟨h1, _, ⟨l, h2, by cases lw <;> simp, ?_⟩, h3⟩
    intro i x d hx hd
    cases lw
    · simp only [Bool.false_eq_true, if_false] at hd ⊢
      exact Option.some.inj (hd.symm.trans hx)
    · simp only [if_true, List.getElem?_map, hx, Option.map_some, Option.some.injEq] at hd ⊢
      intro h0
      rw [← hd]
      exact Real.rpow_logb (by norm_num) (by norm_num) h0
  · simp only [weightPanel, bind_ok_iff, pure_ok_iff] at h
    obtain ⟨walks, hw, rfl⟩ := h
    obtain ⟨-, -, -, k⟩ := walks_axes hw (shown := fun _ => true) (log := false)
      (label := getLabel cfg.labels (if lw then "$\\log_{10}$Weight" else "Weight")) (by
        intro c _ r hr
        simp only [bind_ok_iff] at hr
        obtain ⟨m, -, hr⟩ := hr
        simpa using plotWalk_axes hr)
    rw [k, getLabel_nameOf, List.filter_true]

/-- **C86** (panels). From the top: the log posterior relative to its maximum, if asked for and if a chain has one; the weights, or
their logarithms, if asked for; then the parameters in order. Each panel shows one walk for every chain that has the quantity, in
the order of the chains, and is labelled with it. -/
theorem C86_panels {cfg : PlotConfig} {truths : List (Truth ℝ)} {pw pp lw : Bool} {b : PlottingBase} {fig : Fig}
    (h : plotWalksBase cfg truths pw pp lw b = .ok fig) :
    ∃ post wts main : List (List Call), fig.panels = (post ++ wts ++ main).zipIdx.map (fun e => ((e.2, 0), e.1)) ∧
      post.length = (if pp = true ∧ ∃ c ∈ b.chains, c.logPosterior.isSome = true then 1 else 0) ∧
      wts.length = (if pw then 1 else 0) ∧
      (∀ calls ∈ post, WalksOf (b.chains.filter fun c => c.logPosterior.isSome) (nameOf cfg.labels "$\\log(P)$") RelativePosterior calls) ∧
      (∀ calls ∈ wts, WalksOf b.chains (nameOf cfg.labels (if lw then "$\\log_{10}$Weight" else "Weight")) (WeightValues lw) calls) ∧
      List.Forall₂ (fun p calls => WalksOf (b.chains.filter fun c => decide (p ∈ c.dataColumns)) (nameOf cfg.labels p)
        (ParameterValues p) calls) b.columns main := by
  obtain ⟨post, hpost, extra, main, hf, hm, he⟩ := plotWalks_panels h
  have hmain : List.Forall₂ (fun p calls => WalksOf (b.chains.filter fun c => decide (p ∈ c.dataColumns)) (nameOf cfg.labels p)
      (ParameterValues p) calls) b.columns main := by
    refine hm.imp fun p calls hc => ⟨(C61_walks cfg b truths p calls hc).imp ?_, ?_⟩
    · rintro c w ⟨h1, data, h2, -, h3⟩
      exact ⟨h1, data, h2, h3⟩
    · exact (walkPanel_axes hc).2.2.2
  obtain ⟨e1, e2, he1, he2, rfl⟩ : ∃ e1 e2, List.Forall₂ (fun r calls => r = .ok calls) (if post then [posteriorPanel cfg b] else []) e1 ∧
      List.Forall₂ (fun r calls => r = .ok calls) (if pw then [weightPanel cfg b lw] else []) e2 ∧ extra = e1 ++ e2 := by
    have h1 := List.forall₂_take_append _ _ _ he.flip
    have h2 := List.forall₂_drop_append _ _ _ he.flip
    exact ⟨_, _, h1.flip, h2.flip, (List.take_append_drop _ _).symm⟩
  refine ⟨e1, e2, main, hf, ?_, ?_, ?_, ?_, hmain⟩
  · rw [← he1.length_eq]
    by_cases hp : post = true
    · rw [if_pos hp, if_pos (hpost.1 hp)]; rfl
    · rw [if_neg hp, if_neg fun hc => hp (hpost.2 hc)]; rfl
  · rw [← he2.length_eq]
    cases pw <;> rfl
  · intro calls hc
    cases post
    · cases he1; cases hc
    · rw [if_pos rfl] at he1
      cases he1 with
      | cons h1 h2 =>
        cases h2
        rw [List.mem_singleton.1 hc]
        exact posteriorPanel_shows h1
  · intro calls hc
    cases pw
    · cases he2; cases hc
    · rw [if_pos rfl] at he2
      cases he2 with
      | cons h1 h2 =>
        cases h2
        rw [List.mem_singleton.1 hc]
        exact weightPanel_shows h1

/-- A walk shows its data over the steps: the point at step `i` is sample `i`. -/
def Spec.OnSteps (data out : List ℝ) : Prop := ∀ (i : Nat) y, out[i]? = some y → data[i]? = some y

theorem everyNth_one {α : Type} (l : List α) : everyNth 1 l = l := by
  refine List.ext_getElem? fun i => ?_
  rw [everyNth_spec le_rfl l i, Nat.mul_one]

theorem thin_steps {α : Type} {v : List α} (h : v.length < 200000) : thin v = v := by
  have hM : maxPoints = 100000 := by rw [maxPoints]
  unfold thin
  rw [hM]
  by_cases h' : 100000 < v.length
  · rw [if_pos h']
    have : v.length / 100000 = 1 := by omega
    rw [this, everyNth_one]
  · rw [if_neg h']

theorem thin_skips {v : List ℝ} (h : 200000 ≤ v.length) : ∃ k, 2 ≤ k ∧ k < v.length ∧ (thin v)[1]? = v[k]? := by
  have hM : maxPoints = 100000 := by rw [maxPoints]
  unfold thin
  rw [hM, if_pos (by omega)]
  refine ⟨v.length / 100000, by omega, by omega, ?_⟩
  rw [everyNth_spec (by omega) v 1, Nat.one_mul]

/-- **C86** (steps), partial: the walks of a parameter show sample `i` at step `i`, all of them, for chains of less than 200000
samples. Missing: longer chains (`C86_violated_steps`) and the limit of 100000 points (`C86_violated_limit`). -/
theorem C86_steps_partial {cfg : PlotConfig} {b : PlottingBase} {truths : List (Truth ℝ)} {p : String} {calls : List Call}
    (h : walkPanel cfg b truths p = .ok calls) (hn : ∀ c ∈ b.chains, ∀ data, c.samples.get p = .ok data → data.length < 200000) :
    List.Forall₂ (fun c w => w.1 = c.name ∧ ∃ data, c.samples.get p = .ok data ∧ w.2 = data ∧ OnSteps data w.2)
      (b.chains.filter fun c => decide (p ∈ c.dataColumns)) (calls.filterMap walkOf) := by
  simp only [walkPanel, bind_ok_iff, pure_ok_iff] at h
  obtain ⟨walks, hw, rfl⟩ := h
  have e1 : (truths.flatMap (walkTruth p)).filterMap walkOf = [] := by
    rw [List.filterMap_eq_nil_iff]
    intro a ha
    obtain ⟨t, -, ha⟩ := List.mem_flatMap.1 ha
    unfold walkTruth at ha
    split at ha
    · cases ha
    · rw [List.mem_singleton.1 ha]; rfl
  have e2 : (if p ∈ b.blind then [Call.noTicks .y] else []).filterMap walkOf = [] := by
    split <;> rfl
  rw [List.filterMap_append, List.filterMap_append, e1, e2, List.append_nil, List.append_nil]
  refine flatMap_walks _ _ _ _ _ hw ?_ ?_
  · intro c _ hc calls hcalls
    rw [if_neg (by simpa using hc)] at hcalls
    cases hcalls
    rfl
  · intro c hcm hc calls hcalls
    rw [if_pos (by simpa using hc)] at hcalls
    obtain ⟨data, hd, hcalls⟩ := bind_ok_iff.1 hcalls
    rw [thin_steps (hn c hcm data hd)] at hcalls
    exact ⟨_, (plotWalk_walks hcalls).1, rfl, data, hd, rfl, fun _ _ h => h⟩

/-- One chain of a single parameter: the walk drawn. -/
theorem walk_one (v : List ℝ) (hv : v ≠ []) : ∃ (c : Chain ℝ) (calls : List Call),
    Chain.make { samples := (walkFrame v).toRaw, name := "walk" } = .ok c ∧ c.samples.get "a" = .ok v ∧
    plotWalksBase {} [] false false false ⟨[c], ["a"], [("a", some (0, 4))], [], []⟩ = .ok { panels := [((0, 0), calls)] } ∧
    calls.filterMap walkOf = [("walk", thin v)] := by
  obtain ⟨c, hc, hc1, hc2, hc3⟩ := walkFrame_exists v hv "walk"
  have hca : c.samples.get "a" = .ok v := by rw [hc1]; rfl
  have hne : ¬ thin v = [] := by
    intro h0
    have := (thin_shown v).first
    rw [h0] at this
    exact hv (List.head?_eq_none_iff.1 this)
  have hw : walkPanel {} ⟨[c], ["a"], [("a", some (0, 4))], [], []⟩ [] "a" =
      .ok [.lim .y 0 4, .lim .x 0 (((thin v).length : ℝ) - 1), .axisLabel .y "a", .walk "walk" (thin v), .maxNLocator .y] := by
    simp [walkPanel, hc2, hca, hc3, plotWalk, hne, walkLim, setLim, ensure, bind, Except.bind, pure, Except.pure, getLabel]
  refine ⟨c, [.lim .y 0 4, .lim .x 0 (((thin v).length : ℝ) - 1), .axisLabel .y "a", .walk "walk" (thin v), .maxNLocator .y], hc, hca, ?_, rfl⟩
  simp [plotWalksBase, hw, ensure, bind, Except.bind, pure, Except.pure]

/-- **C86** is violated by every chain of at least 200000 samples without repetitions: after thinning, the points are numbered anew. -/
theorem C86_violated_steps {v : List ℝ} (hv : v.Nodup) (hn : 200000 ≤ v.length) : ∃ (c : Chain ℝ) (fig : Fig) (calls : List Call)
    (out : List ℝ), Chain.make { samples := (walkFrame v).toRaw, name := "walk" } = .ok c ∧ c.samples.get "a" = .ok v ∧
    plotWalksBase {} [] false false false ⟨[c], ["a"], [("a", some (0, 4))], [], []⟩ = .ok fig ∧ ((0, 0), calls) ∈ fig.panels ∧
    ("walk", out) ∈ calls.filterMap walkOf ∧ ¬ OnSteps v out := by
  obtain ⟨c, calls, h1, h2, h3, h4⟩ := walk_one v (by rintro rfl; simp at hn)
  refine ⟨c, _, calls, thin v, h1, h2, h3, List.mem_singleton_self _, by rw [h4]; exact List.mem_singleton_self _, ?_⟩
  intro h
  obtain ⟨k, hk, hkl, he⟩ := thin_skips hn
  rw [List.getElem?_eq_getElem hkl] at he
  have h' := h 1 _ he
  rw [List.getElem?_eq_getElem (by omega)] at h'
  have := (hv.getElem_inj_iff).1 (Option.some.inj h')
  omega

/-- The limit of 100000 points is violated by every chain of 100001 to 199999 samples: they are not thinned at all. -/
theorem C86_violated_limit {v : List ℝ} (hn : 100000 < v.length) (hn' : v.length < 200000) : ∃ (c : Chain ℝ) (fig : Fig)
    (calls : List Call) (out : List ℝ), Chain.make { samples := (walkFrame v).toRaw, name := "walk" } = .ok c ∧
    plotWalksBase {} [] false false false ⟨[c], ["a"], [("a", some (0, 4))], [], []⟩ = .ok fig ∧ ((0, 0), calls) ∈ fig.panels ∧
    ("walk", out) ∈ calls.filterMap walkOf ∧ 100000 < out.length := by
  obtain ⟨c, calls, h1, h2, h3, h4⟩ := walk_one v (by rintro rfl; simp at hn)
  refine ⟨c, _, calls, thin v, h1, h3, List.mem_singleton_self _, by rw [h4]; exact List.mem_singleton_self _, ?_⟩
  rwa [thin_steps hn']

theorem distinct_exist (n : Nat) : ∃ v : List ℝ, v.Nodup ∧ v.length = n :=
  ⟨(List.range n).map (Nat.cast : Nat → ℝ), (List.nodup_range).map Nat.cast_injective, by rw [List.length_map, List.length_range]⟩

/-- There are such chains. -/
example : ∃ v v' : List ℝ, v.Nodup ∧ 200000 ≤ v.length ∧ 100000 < v'.length ∧ v'.length < 200000 := by
  obtain ⟨v, h, h'⟩ := distinct_exist 200000
  obtain ⟨v', -, h2⟩ := distinct_exist 150000
  exact ⟨v, v', h, by omega, by omega, by omega⟩

/-- The hypothesis of `C86_panels` is met by a chain with weights and a log posterior. -/
example : ∃ (c : Chain ℝ) (fig : Fig), plotWalksBase {} [] true true true ⟨[c], ["a"], [("a", some (0, 4))], [], []⟩ = .ok fig ∧
    fig.panels.map (fun e => e.2.filterMap walkOf) = [[("walk", [-2, 0])], [("walk", [0, 1])], [("walk", [3, 4])]] := by
  obtain ⟨c, h1, h2, h3, h4, -, -, -, h5⟩ := plain_chain (⟨[.int 0, .int 1], [("a", [3, 4]), ("weight", [1, 10]),
    ("log_posterior", [-3, -1])]⟩ : Frame ℝ) ⟨by simp, by simp⟩ (by simp) (w := [1, 10]) rfl (by simp) "walk"
  have hd : c.dataColumns = ["a"] := by
    simp only [Chain.dataColumns, h2, h3, h4]
    change List.filter _ ["a", "weight", "log_posterior"] = _
    decide +kernel
  have ha : c.samples.get "a" = .ok [3, 4] := by rw [h2]; rfl
  have hw : c.weights = .ok [1, 10] := by rw [Chain.weights, h2, h3]; rfl
  have hl : c.logPosterior = some [-3, -1] := by
    unfold Chain.logPosterior
    rw [h2, h4]
    rfl
  have ht : ∀ x y : ℝ, thin [x, y] = [x, y] := fun x y => thin_steps (by simp)
  have hm : arrMax ([-3, -1] : List ℝ) = .ok (-1) := by
    rw [arrMax_ok_iff]
    refine ⟨by simp, ?_⟩
    intro x hx
    simp only [List.mem_cons, List.not_mem_nil, or_false] at hx
    rcases hx with rfl | rfl <;> norm_num
  have hpost : ∃ calls, posteriorPanel {} ⟨[c], ["a"], [("a", some (0, 4))], [], []⟩ = .ok calls ∧
      calls.filterMap walkOf = [("walk", [-2, 0])] := by
    refine ⟨_, by simp only [posteriorPanel, List.mapM_cons, List.mapM_nil, hl, hm, List.map_cons, List.map_nil, ht, plotWalk, walkLim,
      ensure, List.isEmpty_cons, Bool.not_false, if_true, bind, Except.bind, pure, Except.pure]; rfl, ?_⟩
    simp [walkOf, h5, List.filterMap_cons]
    norm_num
  have hwt : ∃ calls, weightPanel {} ⟨[c], ["a"], [("a", some (0, 4))], [], []⟩ true = .ok calls ∧
      calls.filterMap walkOf = [("walk", [0, 1])] := by
    refine ⟨_, by simp only [weightPanel, List.mapM_cons, List.mapM_nil, hw, List.map_cons, List.map_nil, ht, plotWalk, walkLim,
      ensure, List.isEmpty_cons, Bool.not_false, if_true, bind, Except.bind, pure, Except.pure]; rfl, ?_⟩
    simp [walkOf, h5, List.filterMap_cons]
  have hmain : ∃ calls, walkPanel {} ⟨[c], ["a"], [("a", some (0, 4))], [], []⟩ [] "a" = .ok calls ∧
      calls.filterMap walkOf = [("walk", [3, 4])] := by
    refine ⟨[.lim .y 0 4, .lim .x 0 1, .axisLabel .y "a", .walk "walk" [3, 4], .maxNLocator .y], ?_, rfl⟩
    simp [walkPanel, hd, ha, h5, ht, plotWalk, walkLim, setLim, ensure, bind, Except.bind, pure, Except.pure, getLabel]
    norm_num
  obtain ⟨c1, e1, f1⟩ := hpost
  obtain ⟨c2, e2, f2⟩ := hwt
  obtain ⟨c3, e3, f3⟩ := hmain
  refine ⟨c, { panels := [((0, 0), c1), ((1, 0), c2), ((2, 0), c3)] }, ?_, by simp [f1, f2, f3]⟩
  have hr : List.range (1 + 2) = [0, 1, 2] := rfl
  simp [plotWalksBase, hl, hr, e1, e2, e3, ensure, bind, Except.bind, pure, Except.pure]

end CC
