import Verif.Props.Given
import Verif.Props.Columns

/-! # C112: an override acts like the same settings on every chain -/

namespace CC
open Spec

/-! ### keyword arguments -/

theorem apply_not_mem {K : Type} {kw : List (Kwarg K)} {k : Key} (h : k ∉ kw.map (·.1)) (c : Cfg K) : c.apply kw k = c k := by
  induction kw generalizing c with
  | nil => rfl
  | cons a kw ih =>
    simp only [List.map_cons, List.mem_cons, not_or] at h
    change (c.set a).apply kw k = c k
    rw [ih h.2]
    simp [Cfg.set, h.1]

theorem apply_mem {K : Type} {kw : List (Kwarg K)} {k : Key} (h : k ∈ kw.map (·.1)) (c d : Cfg K) : c.apply kw k = d.apply kw k := by
  induction kw generalizing c d with
  | nil => cases h
  | cons a kw ih =>
    change (c.set a).apply kw k = (d.set a).apply kw k
    by_cases hk : k ∈ kw.map (·.1)
    · exact ih hk _ _
    · rw [apply_not_mem hk, apply_not_mem hk]
      simp only [List.map_cons, List.mem_cons, hk, or_false] at h
      subst h
      simp [Cfg.set]

theorem apply_append {K : Type} (c d : Cfg K) (kw kw' : List (Kwarg K)) (k : Key) :
    c.apply (kw ++ kw') k = if k ∈ kw'.map (·.1) then d.apply kw' k else c.apply kw k := by
  have e : c.apply (kw ++ kw') = (c.apply kw).apply kw' := by simp [Cfg.apply, List.foldl_append]
  rw [e]
  split_ifs with h
  · exact apply_mem h _ _
  · exact apply_not_mem h _

theorem resolveStatistics_other {K : Type} [Field K] (c : Cfg K) {k : Key} (h : k ≠ .statistics) : resolveStatistics c k = c k := by
  unfold resolveStatistics
  cases hs : c .statistics with
  | none => simp [Cfg.set, h]
  | some s => rfl

theorem resolveStatistics_congr {K : Type} [Field K] {c d : Cfg K} (h1 : c .statistics = d .statistics)
    (h2 : c .multimodal = d .multimodal) : resolveStatistics c .statistics = resolveStatistics d .statistics := by
  unfold resolveStatistics
  cases hs : c .statistics with
  | none => rw [h1] at hs; simp [hs, h2, Cfg.set]
  | some s => rw [h1] at hs; simp [hs, h1]

theorem resolveStatistics_some {K : Type} [Field K] {c : Cfg K} (h : c .statistics ≠ none) :
    resolveStatistics c .statistics = c .statistics := by
  unfold resolveStatistics
  cases hs : c .statistics with
  | none => exact absurd hs h
  | some s => simp [hs]

/-! ### constructing with further settings -/

theorem Config.make_ok_iff {kw : List (Kwarg ℝ)} {o : Config ℝ} : Config.make kw = .ok o ↔
    ∃ col, validateColor (((Cfg.default ℝ).apply kw) .color) = .ok col ∧ ((Cfg.default ℝ).apply kw).constraintsOk = true ∧
      o = ⟨((Cfg.default ℝ).apply kw).set ⟨.color, col⟩, kw.map (·.1)⟩ := by
  simp only [Config.make, bind_ok_iff, ensure_ok_iff, pure_ok_iff]
  constructor
  · rintro ⟨col, h1, _, h2, rfl⟩; exact ⟨col, h1, h2, rfl⟩
  · rintro ⟨col, h1, h2, rfl⟩; exact ⟨col, h1, (), h2, rfl⟩

/-- The settings of a chain constructed with the settings of an override in addition. -/
theorem make_settings {kw : List (Kwarg ℝ)} {o : Config ℝ} (ho : Config.make kw = .ok o) {a : Args ℝ} {c c' : Chain ℝ}
    (hc : Chain.make a = .ok c) (hc' : Chain.make { a with config := a.config ++ kw } = .ok c')
    (hshift : .shiftParams ∉ o.userSet) (hst : .statistics ∈ o.userSet → o.vals .statistics ≠ none)
    (hmm : .multimodal ∈ o.userSet → .statistics ∈ o.userSet) :
    (∀ k, c'.cfg k = if k ∈ o.userSet then o.vals k else c.cfg k) ∧
    c' = { c with cfg := c'.cfg, userSet := c.userSet ++ o.userSet } := by
  obtain ⟨ocol, hov, -, rfl⟩ := Config.make_ok_iff.1 ho
  obtain ⟨col, raw, f0, f, hcol, -, -, hraw, hf0, hf, -, -, -, -, rfl⟩ := Chain.make_ok_iff.1 hc
  obtain ⟨col', raw', f0', f', hcol', -, -, hraw', hf0', hf', -, -, -, -, rfl⟩ := Chain.make_ok_iff.1 hc'
  simp only at hshift hst hmm hcol' hraw' hf0' hf' ⊢
  have hb := apply_append (Cfg.default ℝ) (Cfg.default ℝ) a.config kw
  have hset : ∀ (g : Cfg ℝ) (x : Option String) (k : Key), k ≠ .color → g.set ⟨.color, x⟩ k = g k := by
    intro g x k h; simp [Cfg.set, h]
  have hsetc : ∀ (g : Cfg ℝ) (x : Option String), g.set ⟨.color, x⟩ .color = x := by
    intro g x; simp [Cfg.set]
  obtain rfl : raw = raw' := by rw [hraw] at hraw'; exact Except.ok.inj hraw'
  obtain rfl : f0 = f0' := by rw [hf0] at hf0'; exact Except.ok.inj hf0'
  have hsh : (Cfg.default ℝ).apply (a.config ++ kw) .shiftParams = (Cfg.default ℝ).apply a.config .shiftParams := by
    rw [hb, if_neg hshift]
  rw [hset _ _ _ (by intro h; cases h), hsh] at hf'
  rw [hset _ _ _ (by intro h; cases h)] at hf
  obtain rfl : f = f' := by rw [hf] at hf'; exact Except.ok.inj hf'
  refine ⟨?_, by simp⟩
  intro k
  by_cases hkc : k = .color
  · subst hkc
    rw [resolveStatistics_other _ (by intro h; cases h), resolveStatistics_other _ (by intro h; cases h), hsetc, hsetc]
    rw [hb] at hcol'
    split_ifs at hcol' ⊢ with hk
    · rw [hov] at hcol'; exact (Except.ok.inj hcol').symm
    · rw [hcol] at hcol'; exact (Except.ok.inj hcol').symm
  by_cases hks : k = .statistics
  · subst hks
    split_ifs with hk
    · have h1 := hst hk
      rw [hset _ _ _ (by intro h; cases h)] at h1 ⊢
      have e : ((Cfg.default ℝ).apply (a.config ++ kw)).set ⟨.color, col'⟩ .statistics = (Cfg.default ℝ).apply kw .statistics := by
        rw [hset _ _ _ (by intro h; cases h), hb, if_pos hk]
      rw [resolveStatistics_some (by rw [e]; exact h1), e]
    · have hm : .multimodal ∉ kw.map (·.1) := fun h => hk (hmm h)
      apply resolveStatistics_congr
      · rw [hset _ _ _ (by intro h; cases h), hset _ _ _ (by intro h; cases h), hb, if_neg hk]
      · rw [hset _ _ _ (by intro h; cases h), hset _ _ _ (by intro h; cases h), hb, if_neg hm]
  rw [resolveStatistics_other _ hks, resolveStatistics_other _ hks, hset _ _ _ hkc, hset _ _ _ hkc, hset _ _ _ hkc, hb]

/-! ### the chains used -/

/-- A registered chain, and the chain constructed with the settings `kw` in addition, under the same name. -/
def Spec.WithSettings (kw : List (Kwarg ℝ)) (e e' : String × Chain ℝ) : Prop :=
  e.1 = e'.1 ∧ ∃ a, Chain.make a = .ok e.2 ∧ Chain.make { a with config := a.config ++ kw } = .ok e'.2

/-- A chain without the record of which settings were given. -/
def Spec.bare (c : Chain ℝ) : Chain ℝ := { c with userSet := [] }

theorem auto_eq {o : Config ℝ} {g g' : Cfg ℝ} {n n' : Nat} {col col' : String}
    (hg : ∀ k, g' k = if k ∈ o.userSet then o.vals k else g k) (hn : .plotContour ∉ o.userSet → n = n')
    (hcol : .color ∉ o.userSet → col = col')
    (hlab : .showContourLabels ∈ o.userSet → .shadeAlpha ∈ o.userSet)
    (hcont : .plotContour ∈ o.userSet → .shade ∈ o.userSet ∧ .barShade ∈ o.userSet ∧ .shadeAlpha ∈ o.userSet)
    {k : Key} (hk : k ∉ o.userSet) : auto n g col k = auto n' g' col' k := by
  have hN : (k = .shade ∨ k = .barShade ∨ k = .shadeAlpha) → n = n' := by
    intro h
    refine hn fun hp => ?_
    obtain ⟨h1, h2, h3⟩ := hcont hp
    rcases h with rfl | rfl | rfl
    · exact hk h1
    · exact hk h2
    · exact hk h3
  cases k
  case shade => simp only [auto, hN (by simp)]
  case barShade => simp only [auto, hN (by simp)]
  case shadeAlpha =>
    have : g' .showContourLabels = g .showContourLabels := by rw [hg, if_neg fun h => hk (hlab h)]
    simp only [auto, hN (by simp), this]
  case color =>
    have : g' .color = g .color := by rw [hg, if_neg hk]
    simp only [auto, this, hcol hk]
  all_goals rfl

theorem resolvedChains_settings {kw : List (Kwarg ℝ)} {o : Config ℝ} (ho : Config.make kw = .ok o)
    (hshift : .shiftParams ∉ o.userSet) (hst : .statistics ∈ o.userSet → o.vals .statistics ≠ none)
    (hmm : .multimodal ∈ o.userSet → .statistics ∈ o.userSet)
    (hlab : .showContourLabels ∈ o.userSet → .shadeAlpha ∈ o.userSet)
    (hcont : .plotContour ∈ o.userSet → .shade ∈ o.userSet ∧ .barShade ∈ o.userSet ∧ .shadeAlpha ∈ o.userSet)
    {n n' : Nat} (hn : .plotContour ∉ o.userSet → n = n') {es es' : List (String × Chain ℝ)}
    (hes : List.Forall₂ (WithSettings kw) es es') (u u' : Nat) (hu : .color ∉ o.userSet → u = u') :
    (resolvedChains n (some o) (es.map Prod.snd) u).map bare = (resolvedChains n' none (es'.map Prod.snd) u').map bare := by
  induction hes generalizing u u' with
  | nil => rfl
  | @cons e e' es es' he hes ih =>
    obtain ⟨-, a, hc, hc'⟩ := he
    obtain ⟨hcfg, hrec⟩ := make_settings ho hc hc' hshift hst hmm
    simp only [List.map_cons, resolvedChains]
    congr 1
    · have hsett : Spec.resolved (some o) e.2.userSet n e.2.cfg (autoColours.getD u "") =
          Spec.resolved none e'.2.userSet n' e'.2.cfg (autoColours.getD u' "") := by
        funext k
        have hus : e'.2.userSet = e.2.userSet ++ o.userSet := by rw [hrec]
        simp only [Spec.resolved, hus, List.mem_append]
        by_cases hk : k ∈ o.userSet
        · simp only [hk, if_true, or_true, hcfg k]
        · simp only [hk, if_false, or_false, hcfg k]
          rw [auto_eq hcfg hn (fun h => by rw [hu h]) hlab hcont hk]
      rw [hsett]
      generalize Spec.resolved none e'.2.userSet n' e'.2.cfg (autoColours.getD u' "") = g
      rw [hrec]
      rfl
    · apply ih
      intro h
      have : e'.2.cfg .color = e.2.cfg .color := by rw [hcfg, if_neg h]
      rw [this, hu h]

theorem numContourChains_copies (h : Heap ℝ) (s : Consumer ℝ) :
    numContourChains h s = ((copyChains h s).filter fun e => e.2.cfg .plotContour).length := by
  simp only [numContourChains, copyChains]
  induction s.chains with
  | nil => rfl
  | cons e es ih =>
    rw [List.filter_cons, List.filterMap_cons]
    cases hc : h[e.2]? with
    | none => simp [ih]
    | some c =>
      simp only [Option.any_some, Option.map_some, List.filter_cons]
      split_ifs
      · rw [List.length_cons, List.length_cons, ih]
      · exact ih

/-- **C112.** Chains used under an override are those used if every chain had been constructed with the settings of the override
in addition, in every field. What is missing from the full property: `shift_params`, `statistics=None`, `multimodal`
without `statistics`, and settings on which automatic ones depend (`show_contour_labels`, `plot_contour`) if these are
not overridden too; see the violations below. -/
theorem C112_same_partial {kw : List (Kwarg ℝ)} {o : Config ℝ} (ho : Config.make kw = .ok o)
    (hshift : .shiftParams ∉ o.userSet) (hst : .statistics ∈ o.userSet → o.vals .statistics ≠ none)
    (hmm : .multimodal ∈ o.userSet → .statistics ∈ o.userSet)
    (hlab : .showContourLabels ∈ o.userSet → .shadeAlpha ∈ o.userSet)
    (hcont : .plotContour ∈ o.userSet → .shade ∈ o.userSet ∧ .barShade ∈ o.userSet ∧ .shadeAlpha ∈ o.userSet)
    {h h' : Heap ℝ} {s s' : Consumer ℝ} (hs : s.override = some o) (hs' : s'.override = none)
    (hes : List.Forall₂ (WithSettings kw) (copyChains h s) (copyChains h' s'))
    (hu : uncoloured (chainsOf h s) ≤ 88) (hu' : uncoloured (chainsOf h' s') ≤ 88) :
    ∃ d d', finalDict h s = .ok d ∧ finalDict h' s' = .ok d' ∧ d.map Prod.fst = (copyChains h s).map Prod.fst ∧
      d.map (fun e => (e.1, bare e.2)) = d'.map (fun e => (e.1, bare e.2)) := by
  have hn : .plotContour ∉ o.userSet → numContourChains h s = numContourChains h' s' := by
    intro hp
    rw [numContourChains_copies, numContourChains_copies]
    clear hu hu'
    generalize copyChains h s = es at hes
    generalize copyChains h' s' = es' at hes
    induction hes with
    | nil => rfl
    | @cons e e' es es' he hes ih =>
      obtain ⟨-, a, hc, hc'⟩ := he
      have := (make_settings ho hc hc' hshift hst hmm).1 .plotContour
      rw [if_neg hp] at this
      rw [List.filter_cons, List.filter_cons, this]
      split_ifs
      · rw [List.length_cons, List.length_cons, ih]
      · exact ih
  have key := resolvedChains_settings ho hshift hst hmm hlab hcont hn hes 0 0 fun _ => rfl
  have hnames : (copyChains h s).map Prod.fst = (copyChains h' s').map Prod.fst := by
    clear key hn hu hu'
    generalize copyChains h s = es at hes
    generalize copyChains h' s' = es' at hes
    induction hes with
    | nil => rfl
    | cons he hes ih => rw [List.map_cons, List.map_cons, he.1, ih]
  have hl : ((copyChains h s).map Prod.fst).length =
      (resolvedChains (numContourChains h s) (some o) (chainsOf h s) 0).length := by
    rw [resolvedChains_length, chainsOf, List.length_map, List.length_map]
  refine ⟨_, _, by rw [finalDict_eq h s hu, hs], by rw [finalDict_eq h' s' hu', hs'], List.map_fst_zip hl.le, ?_⟩
  rw [hnames]
  have hz : ∀ (ns : List String) (cs : List (Chain ℝ)),
      (ns.zip cs).map (fun e => (e.1, bare e.2)) = ns.zip (cs.map bare) := by
    intro ns cs
    rw [List.zip_map_right]
    rfl
  rw [hz, hz]
  congr 1

/-- Hence the summaries are the same. -/
theorem summaryLoop_bare (kde : KdeFn) (cols : List String) (cs cs' : List (Chain ℝ)) (h : cs.map bare = cs'.map bare)
    (res : List (String × List (String × Summary ℝ))) : summaryLoop kde cols cs res = summaryLoop kde cols cs' res := by
  induction cs generalizing cs' res with
  | nil =>
    cases cs' with
    | nil => rfl
    | cons c cs => simp at h
  | cons c cs ih =>
    cases cs' with
    | nil => simp at h
    | cons c' cs' =>
      simp only [List.map_cons, List.cons.injEq] at h
      have hb : ∀ (c : Chain ℝ) (cols : List String) (r : List (String × Summary ℝ)),
          chainSummary kde c cols r = chainSummary kde (bare c) cols r := by
        intro c cols
        induction cols with
        | nil => intro r; rfl
        | cons p ps ih => intro r; simp only [chainSummary, ih]; rfl
      have hn : c.name = c'.name := by
        have := congrArg Chain.name h.1
        exact this
      simp only [summaryLoop]
      rw [hb c, hb c', h.1, hn]
      simp only [fun r => ih cs' h.2 r]

/-- **C112** for `get_summary`, with the same exceptions. -/
theorem C112_summary_partial (kde : KdeFn) {kw : List (Kwarg ℝ)} {o : Config ℝ} (ho : Config.make kw = .ok o)
    (hshift : .shiftParams ∉ o.userSet) (hst : .statistics ∈ o.userSet → o.vals .statistics ≠ none)
    (hmm : .multimodal ∈ o.userSet → .statistics ∈ o.userSet)
    (hlab : .showContourLabels ∈ o.userSet → .shadeAlpha ∈ o.userSet)
    (hcont : .plotContour ∈ o.userSet → .shade ∈ o.userSet ∧ .barShade ∈ o.userSet ∧ .shadeAlpha ∈ o.userSet)
    {h h' : Heap ℝ} {s s' : Consumer ℝ} (hs : s.override = some o) (hs' : s'.override = none)
    (hes : List.Forall₂ (WithSettings kw) (copyChains h s) (copyChains h' s'))
    (hu : uncoloured (chainsOf h s) ≤ 88) (hu' : uncoloured (chainsOf h' s') ≤ 88) (cols : List String) :
    getSummary kde h s none (some cols) = getSummary kde h' s' none (some cols) := by
  obtain ⟨d, d', hd, hd', -, he⟩ := C112_same_partial ho hshift hst hmm hlab hcont hs hs' hes hu hu'
  simp only [getSummary, hd, hd', plotChains, bind, Except.bind, pure, Except.pure, sanitiseColumns, Bool.true_or, List.filter_true]
  apply summaryLoop_bare
  have := congrArg (List.map Prod.snd) he
  simpa [List.map_map, Function.comp_def] using this

/-! ### violations -/

/-- The chains used, one by one. -/
theorem finalDict_entry {h : Heap ℝ} {s : Consumer ℝ} (hu : uncoloured (chainsOf h s) ≤ 88) : ∃ d, finalDict h s = .ok d ∧
    ∀ (i : Nat) (n : String) (c : Chain ℝ), (copyChains h s)[i]? = some (n, c) → ∃ col,
      d[i]? = some (n, c.withCfg (Spec.resolved s.override c.userSet (numContourChains h s) c.cfg col)) := by
  refine ⟨_, finalDict_eq h s hu, ?_⟩
  intro i n c hi
  refine ⟨autoColours.getD (0 + uncoloured ((chainsOf h s).take i)) "", ?_⟩
  rw [List.getElem?_zip_eq_some, resolvedChains_getElem?, chainsOf, List.getElem?_map, List.getElem?_map, hi]
  exact ⟨rfl, rfl⟩

/-- **C112** (violation). The constructor makes a multimodal chain use HDI or refuses it, but an override that sets `multimodal`
leaves every chain with the statistic it has. -/
theorem C112_violated_multimodal :
    (∀ (a : Args ℝ) (c : Chain ℝ), Chain.make a = .ok c → c.cfg .multimodal = true → c.cfg .statistics = some .hdi) ∧
    ∀ (h : Heap ℝ) (s : Consumer ℝ) (o : Config ℝ), s.override = some o → .multimodal ∈ o.userSet →
      o.vals .multimodal = true →
      .statistics ∉ o.userSet → uncoloured (chainsOf h s) ≤ 88 → ∃ d, finalDict h s = .ok d ∧
        ∀ (i : Nat) (n : String) (c : Chain ℝ), (copyChains h s)[i]? = some (n, c) →
          ∃ c' : Chain ℝ, d[i]? = some (n, c') ∧ c'.cfg .multimodal = true ∧
            c'.cfg .statistics = c.cfg .statistics ∧ (c.cfg .statistics = some .max → ∀ a, Chain.make a ≠ .ok c') := by
  have h1 : ∀ (a : Args ℝ) (c : Chain ℝ), Chain.make a = .ok c → c.cfg .multimodal = true → c.cfg .statistics = some .hdi := by
    intro a c hc hm
    obtain ⟨col, raw, f0, f, -, -, -, -, -, -, -, -, -, hx, rfl⟩ := Chain.make_ok_iff.1 hc
    simp only at hm ⊢
    rw [hm] at hx
    simpa using hx
  refine ⟨h1, ?_⟩
  intro h s o hs hk hv hns hu
  obtain ⟨d, hd, he⟩ := finalDict_entry hu
  refine ⟨d, hd, ?_⟩
  intro i n c hi
  obtain ⟨col, hc⟩ := he i n c hi
  have hm : (c.withCfg (Spec.resolved s.override c.userSet (numContourChains h s) c.cfg col)).cfg .multimodal = true := by
    simp only [Chain.withCfg, Spec.resolved, hs, hk, if_true, hv]
  have hst : (c.withCfg (Spec.resolved s.override c.userSet (numContourChains h s) c.cfg col)).cfg .statistics =
      c.cfg .statistics := by
    simp only [Chain.withCfg, Spec.resolved, hs, hns, if_false, auto, Option.getD_none, ite_self]
  refine ⟨_, hc, hm, hst, ?_⟩
  intro hmax a ha
  have := h1 a _ ha hm
  rw [hst, hmax] at this
  cases this

/-- **C112** (violation). An override that sets `shift_params` changes no sample, while constructing the chains with it does. -/
theorem C112_violated_shift (h : Heap ℝ) (s : Consumer ℝ) (o : Config ℝ) (hs : s.override = some o) (hk : .shiftParams ∈ o.userSet)
    (hv : o.vals .shiftParams = true) (hu : uncoloured (chainsOf h s) ≤ 88) : ∃ d, finalDict h s = .ok d ∧
      ∀ (i : Nat) (n : String) (c : Chain ℝ), (copyChains h s)[i]? = some (n, c) →
        ∃ c' : Chain ℝ, d[i]? = some (n, c') ∧ c'.cfg .shiftParams = true ∧ c'.samples = c.samples ∧
        ∀ (a : Args ℝ) (c'' : Chain ℝ), a.samples.WF → setting a .shiftParams = false → Chain.make a = .ok c →
          Chain.make { a with config := a.config ++ [⟨.shiftParams, true⟩] } = .ok c'' → c''.samples ≠ c'.samples := by
  obtain ⟨d, hd, he⟩ := finalDict_entry hu
  refine ⟨d, hd, ?_⟩
  intro i n c hi
  obtain ⟨col, hc⟩ := he i n c hi
  refine ⟨_, hc, by simp only [Chain.withCfg, Spec.resolved, hs, hk, if_true, hv], rfl, ?_⟩
  intro a c'' hwf hns hma hma' e
  obtain ⟨-, -, -, -, ⟨w, hw, -, hpos⟩, -⟩ := C07_accepted_chain_guarantees a c hwf hns hma
  have hset : setting { a with config := a.config ++ [⟨.shiftParams, true⟩] } .shiftParams = true := by
    simp [setting, apply_append _ (Cfg.default ℝ)]
    rfl
  obtain ⟨w', hw', x, hx, hx0⟩ := C08_weights_destroyed { a with config := a.config ++ [⟨.shiftParams, true⟩] } c'' hwf hset hma'
  have hwc : c''.weightColumn = c.weightColumn := by
    obtain ⟨col, raw, f0, f, -, -, -, -, -, -, -, -, -, -, rfl⟩ := Chain.make_ok_iff.1 hma
    obtain ⟨col, raw, f0, f, -, -, -, -, -, -, -, -, -, -, rfl⟩ := Chain.make_ok_iff.1 hma'
    rfl
  have hee : c''.samples = c.samples := e
  have hww : c''.weights = c.weights := by
    unfold Chain.weights
    rw [hee, hwc]
  rw [hww, hw] at hw'
  cases hw'
  exact absurd (hpos x hx) (not_lt.2 hx0)

/-- **C112** (violation). Contour labels halve the opacity of a chain that shows them, but not if they are switched on by an
override. -/
theorem C112_violated_labels (h : Heap ℝ) (s : Consumer ℝ) (o : Config ℝ) (hs : s.override = some o)
    (hk : .showContourLabels ∈ o.userSet) (hv : o.vals .showContourLabels = true) (ha : .shadeAlpha ∉ o.userSet)
    (hu : uncoloured (chainsOf h s) ≤ 88) (hN : 0 < numContourChains h s) : ∃ d, finalDict h s = .ok d ∧
      ∀ (i : Nat) (n : String) (c : Chain ℝ), (copyChains h s)[i]? = some (n, c) → .shadeAlpha ∉ c.userSet →
        c.cfg .showContourLabels = false →
        ∃ c' : Chain ℝ, d[i]? = some (n, c') ∧ c'.cfg .showContourLabels = true ∧
          c'.cfg .shadeAlpha = .fin (1 / Real.sqrt (numContourChains h s)) ∧
          c'.cfg .shadeAlpha ≠ .fin (1 / Real.sqrt (numContourChains h s) / 2) := by
  obtain ⟨d, hd, he⟩ := finalDict_entry hu
  refine ⟨d, hd, ?_⟩
  intro i n c hi hnu hl
  obtain ⟨col, hc⟩ := he i n c hi
  have e : (c.withCfg (Spec.resolved s.override c.userSet (numContourChains h s) c.cfg col)).cfg .shadeAlpha =
      .fin (1 / Real.sqrt (numContourChains h s)) := by
    simp only [Chain.withCfg, Spec.resolved, hs, ha, if_false, hnu, auto, Option.getD_some, autoAlpha, hl, hN.ne']
    simp
  refine ⟨_, hc, by simp only [Chain.withCfg, Spec.resolved, hs, hk, if_true, hv], e, ?_⟩
  rw [e]
  intro hx
  have hx' := Flt.fin.inj hx
  have : 0 < 1 / Real.sqrt (numContourChains h s) := by
    have : (0 : ℝ) < numContourChains h s := by exact_mod_cast hN
    positivity
  linarith

/-- **C112** (violation). With five or more chains that draw contours by themselves and an override that sets `plot_contour` to
false no chain draws contours, yet no chain is shaded; if none of the chains had been constructed with contours, all
would be. -/
theorem C112_violated_contours (h : Heap ℝ) (s : Consumer ℝ) (o : Config ℝ) (hs : s.override = some o)
    (hk : .plotContour ∈ o.userSet) (hv : o.vals .plotContour = false) (ha : .barShade ∉ o.userSet)
    (hu : uncoloured (chainsOf h s) ≤ 88) (hN : 5 ≤ numContourChains h s) : ∃ d, finalDict h s = .ok d ∧
      ∀ (i : Nat) (n : String) (c : Chain ℝ), (copyChains h s)[i]? = some (n, c) → .barShade ∉ c.userSet →
        ∃ c' : Chain ℝ, d[i]? = some (n, c') ∧ c'.cfg .plotContour = false ∧ c'.cfg .barShade = false := by
  obtain ⟨d, hd, he⟩ := finalDict_entry hu
  refine ⟨d, hd, ?_⟩
  intro i n c hi hnu
  obtain ⟨col, hc⟩ := he i n c hi
  refine ⟨_, hc, by simp only [Chain.withCfg, Spec.resolved, hs, hk, if_true, hv], ?_⟩
  simp only [Chain.withCfg, Spec.resolved, hs, ha, if_false, hnu, auto, Option.getD_some]
  simpa using hN

/-! ### the hypotheses are met -/

/-- A summary area given by an override, and by the constructor. -/
example : ∃ o c c', Config.make [⟨.summaryArea, (1 / 2 : ℝ)⟩] = .ok o ∧ Chain.make (skewArgs .max) = .ok c ∧
    let h : Heap ℝ := [c]
    let h' : Heap ℝ := [c']
    let s : Consumer ℝ := { chains := [("skew", 0)], override := some o }
    let s' : Consumer ℝ := { chains := [("skew", 0)] }
    o.userSet = [.summaryArea] ∧ List.Forall₂ (WithSettings [⟨.summaryArea, (1 / 2 : ℝ)⟩]) (copyChains h s) (copyChains h' s') ∧
      uncoloured (chainsOf h s) ≤ 88 ∧ uncoloured (chainsOf h' s') ≤ 88 ∧
      c.cfg .summaryArea = (6827 / 10000 : ℝ) ∧ c'.cfg .summaryArea = (1 / 2 : ℝ) := by
  have hf : skewFrame.WF := ⟨by simp [skewFrame], by simp [skewFrame]⟩
  obtain ⟨c, hc, -, -, -, -, -, -, -, hcfg⟩ :=
    plain_chain_cfg true [⟨.statistics, some .max⟩] rfl
      (by change (0 : ℝ) ≤ 6827 / 10000 ∧ (6827 / 10000 : ℝ) ≤ 1; constructor <;> norm_num)
      (by change (1 : ℝ) ≤ 10; norm_num) rfl rfl (by intro h; cases h) skewFrame hf
      (by simp [skewFrame]) (w := [3, 1]) rfl (by simp) "skew" 1 le_rfl (one_dvd _)
  obtain ⟨c', hc', -, -, -, -, -, -, -, hcfg'⟩ :=
    plain_chain_cfg true [⟨.statistics, some .max⟩, ⟨.summaryArea, (1 / 2 : ℝ)⟩] rfl
      (by change (0 : ℝ) ≤ 1 / 2 ∧ (1 / 2 : ℝ) ≤ 1; constructor <;> norm_num)
      (by change (1 : ℝ) ≤ 10; norm_num) rfl rfl (by intro h; cases h) skewFrame hf
      (by simp [skewFrame]) (w := [3, 1]) rfl (by simp) "skew" 1 le_rfl (one_dvd _)
  have ho : Config.make [⟨.summaryArea, (1 / 2 : ℝ)⟩] =
      .ok ⟨((Cfg.default ℝ).apply [⟨.summaryArea, (1 / 2 : ℝ)⟩]).set ⟨.color, none⟩, [.summaryArea]⟩ := by
    refine Config.make_ok_iff.2 ⟨none, rfl, ?_, rfl⟩
    have e1 : (Cfg.default ℝ).apply [⟨.summaryArea, (1 / 2 : ℝ)⟩] .summaryArea = (1 / 2 : ℝ) := rfl
    have e2 : (Cfg.default ℝ).apply [⟨.summaryArea, (1 / 2 : ℝ)⟩] .markerSize = (10 : ℝ) := rfl
    simp only [Cfg.constraintsOk, e1, e2, Bool.and_eq_true, decide_eq_true_eq]
    norm_num
  refine ⟨_, c, c', ho, hc, ?_⟩
  intro h h' s s'
  refine ⟨rfl, .cons ⟨rfl, skewArgs .max, hc, hc'⟩ .nil, le_trans (List.length_filter_le _ _) ?_,
    le_trans (List.length_filter_le _ _) ?_, by rw [hcfg]; rfl, by rw [hcfg']; rfl⟩
  · change 1 ≤ 88; norm_num
  · change 1 ≤ 88; norm_num

/-- An override with one flag. -/
theorem flag_override (k : Key) (b : k.Ty ℝ) (hk : k ∉ [Key.color, .summaryArea, .markerSize]) :
    Config.make [⟨k, b⟩] = .ok ⟨((Cfg.default ℝ).apply [⟨k, b⟩]).set ⟨.color, none⟩, [k]⟩ := by
  simp only [List.mem_cons, List.not_mem_nil, or_false, not_or] at hk
  refine Config.make_ok_iff.2 ⟨none, ?_, ?_, rfl⟩
  · rw [apply_not_mem (by simpa using fun h => hk.1 h.symm)]; rfl
  · simp only [Cfg.constraintsOk, Bool.and_eq_true, decide_eq_true_eq]
    rw [apply_not_mem (by simpa using fun h => hk.2.1 h.symm), apply_not_mem (by simpa using fun h => hk.2.2 h.symm)]
    simp only [Cfg.default]
    norm_num

/-- Five chains with contours and the statistic `max`: the overrides of `C112_violated_multimodal`, `C112_violated_labels` and
`C112_violated_contours` can be made and meet the hypotheses. -/
example : ∃ c : Chain ℝ, Chain.make (skewArgs .max) = .ok c ∧
    let h : Heap ℝ := [c]
    let s : Consumer ℝ := { chains := [("a", 0), ("b", 0), ("c", 0), ("d", 0), ("e", 0)] }
    (∃ o : Config ℝ, Config.make [⟨.multimodal, true⟩] = .ok o ∧ .multimodal ∈ o.userSet ∧ o.vals .multimodal = true ∧
      .statistics ∉ o.userSet) ∧
    (∃ o : Config ℝ, Config.make [⟨.showContourLabels, true⟩] = .ok o ∧ .showContourLabels ∈ o.userSet ∧
      o.vals .showContourLabels = true ∧ .shadeAlpha ∉ o.userSet) ∧
    (∃ o : Config ℝ, Config.make [⟨.plotContour, false⟩] = .ok o ∧ .plotContour ∈ o.userSet ∧ o.vals .plotContour = false ∧
      .barShade ∉ o.userSet) ∧
    uncoloured (chainsOf h s) ≤ 88 ∧ 5 ≤ numContourChains h s ∧ (copyChains h s)[0]? = some ("a", c) ∧
    .shadeAlpha ∉ c.userSet ∧ .barShade ∉ c.userSet ∧ c.cfg .showContourLabels = false ∧ c.cfg .statistics = some .max := by
  have hf : skewFrame.WF := ⟨by simp [skewFrame], by simp [skewFrame]⟩
  obtain ⟨c, hc, -, -, -, -, -, -, -, hcfg⟩ :=
    plain_chain_cfg true [⟨.statistics, some .max⟩] rfl
      (by change (0 : ℝ) ≤ 6827 / 10000 ∧ (6827 / 10000 : ℝ) ≤ 1; constructor <;> norm_num)
      (by change (1 : ℝ) ≤ 10; norm_num) rfl rfl (by intro h; cases h) skewFrame hf
      (by simp [skewFrame]) (w := [3, 1]) rfl (by simp) "skew" 1 le_rfl (one_dvd _)
  have hus : c.userSet = [.statistics] := by
    obtain ⟨col, raw, f0, f, -, -, -, -, -, -, -, -, -, -, rfl⟩ := Chain.make_ok_iff.1 hc
    rfl
  have hpc : c.cfg .plotContour = true := by rw [hcfg]; rfl
  refine ⟨c, hc, ?_⟩
  intro h s
  refine ⟨⟨_, flag_override .multimodal true (by decide), by simp, rfl, by simp⟩,
    ⟨_, flag_override .showContourLabels true (by decide), by simp, rfl, by simp⟩,
    ⟨_, flag_override .plotContour false (by decide), by simp, rfl, by simp⟩,
    le_trans (List.length_filter_le _ _) (by change 5 ≤ 88; norm_num), ?_, rfl, by rw [hus]; simp, by rw [hus]; simp,
    by rw [hcfg]; rfl, by rw [hcfg]; rfl⟩
  rw [numContourChains_copies]
  simp [copyChains, s, h, hpc]

/-- A chain that can be constructed with and without `shift_params`, for `C112_violated_shift`. -/
example : ∃ c c'', Chain.make { samples := (columnsDemo false).toRaw, name := "c" } = .ok c ∧
    Chain.make { samples := (columnsDemo false).toRaw, name := "c", config := [⟨.shiftParams, true⟩] } = .ok c'' ∧
    (columnsDemo false).toRaw.WF ∧ ∃ o : Config ℝ, Config.make [⟨.shiftParams, true⟩] = .ok o ∧ .shiftParams ∈ o.userSet ∧
      o.vals .shiftParams = true := by
  have hwf : (columnsDemo false).WF := ⟨by decide, by simp [columnsDemo]⟩
  obtain ⟨c, hc, hs, -⟩ := plain_chain (columnsDemo false) hwf (by simp [columnsDemo])
    (w := [1, 2]) rfl (by simp) "c"
  have hc0 := hc
  obtain ⟨col, raw, f0, f, h1, h2, h3, h4, h5, h6, h7, h8, h9, h10, rfl⟩ := Chain.make_ok_iff.1 hc
  have hcol : col = none := by cases h1; rfl
  subst hcol
  have hff : f0 = f := by cases h6; rfl
  subst hff
  have hf0 : f0 = columnsDemo false := hs
  have hsh : shiftIf true "weight" f0 =
      .ok { index := [.int 0, .int 1], cols := [("a", [1 - 7 / 3, 3 - 7 / 3]), ("weight", [1 - 5 / 3, 2 - 5 / 3])] } := by
    have e1 : average ([1, 3] : List ℝ) [1, 2] = .ok (7 / 3) := by norm_num [average, dot]
    have e2 : average ([1, 2] : List ℝ) [1, 2] = .ok (5 / 3) := by norm_num [average, dot]
    rw [hf0]
    refine bind_ok_iff.2 ⟨{ index := [.int 0, .int 1], cols := [("a", [1 - 7 / 3, 3 - 7 / 3]), ("weight", [1, 2])] },
      bind_ok_iff.2 ⟨[1, 2], rfl, bind_ok_iff.2 ⟨[1, 3], rfl, bind_ok_iff.2 ⟨_, e1, rfl⟩⟩⟩,
      bind_ok_iff.2 ⟨_, bind_ok_iff.2 ⟨[1, 2], rfl, bind_ok_iff.2 ⟨[1, 2], rfl, bind_ok_iff.2 ⟨_, e2, rfl⟩⟩⟩, rfl⟩⟩
  refine ⟨_, _, hc0, Chain.make_ok_iff.2 ⟨none, raw, f0, _, rfl, h2, h3, h4, h5, hsh, rfl, rfl, rfl, rfl, rfl⟩, ?_,
    _, flag_override .shiftParams true (by decide), by simp, rfl⟩
  exact ⟨by decide, by simp [columnsDemo, Frame.toRaw]⟩

end CC
