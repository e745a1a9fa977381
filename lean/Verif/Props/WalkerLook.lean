import Verif.Props.Siblings
import Verif.Props.ChainNames

/-! # C136: walkers of a divided chain are shown like chains of their own -/

namespace CC
open Spec

section
variable {K : Type} [Field K] [LinearOrder K]

/-- The call that makes a chain of the samples of the walker `d`, with the settings that the user gave to the chain `a` as a whole (but its
colour, which `divide` leaves out). -/
def Spec.ownArgs (a : Args K) (d : Chain K) : Args K :=
  { a with samples := d.samples.toRaw, name := d.name, walkers := 1, config := a.config.filter fun kv => kv.1 ≠ .color }

/-- The settings given by the user, besides the colour. -/
def Spec.givenKeys (a : Args K) : List Key := (a.config.map (·.1)).filter (· ≠ .color)

omit [Field K] [LinearOrder K] in
theorem filtered_setting (kw : List (Kwarg K)) (c : Cfg K) (k : Key) :
    c.apply (kw.filter fun kv => kv.1 ≠ .color) k = if k = .color then c k else c.apply kw k := by
  induction kw generalizing c with
  | nil => simp [Cfg.apply]
  | cons x kw ih =>
    by_cases hx : x.1 = .color
    · have e : (x :: kw).filter (fun kv => kv.1 ≠ .color) = kw.filter fun kv => kv.1 ≠ .color := by simp [hx]
      rw [e, ih]
      by_cases hk : k = .color
      · simp [hk]
      · rw [if_neg hk, if_neg hk]
        have : ∀ (kw : List (Kwarg K)) (c c' : Cfg K), c k = c' k → c.apply kw k = c'.apply kw k := by
          intro kw
          induction kw with
          | nil => intro c c' h; exact h
          | cons y kw ih =>
            intro c c' h
            refine ih _ _ ?_
            by_cases hy : k = y.1
            · obtain ⟨y1, y2⟩ := y
              dsimp only at hy
              subst hy
              simp [Cfg.set]
            · simp [Cfg.set, Function.update_of_ne hy, h]
        refine this kw _ _ ?_
        simp [Cfg.set, Function.update_of_ne (fun h => hk (h.trans hx))]
    · have e : (x :: kw).filter (fun kv => kv.1 ≠ .color) = x :: kw.filter fun kv => kv.1 ≠ .color := by simp [hx]
      rw [e]
      change Cfg.apply (c.set x) _ k = if k = .color then c k else Cfg.apply (c.set x) kw k
      rw [ih]
      by_cases hk : k = .color
      · subst hk
        simp [Cfg.set, Function.update_of_ne (fun h => hx h.symm)]
      · simp [hk]

variable [IsStrictOrderedRing K]

omit [LinearOrder K] [IsStrictOrderedRing K] in
theorem own_setting (a : Args K) (d : Chain K) (k : Key) :
    setting (ownArgs a d) k = if k = .color then Cfg.default K k else setting a k := filtered_setting _ _ _

theorem own_core (a : Args K) (c : Chain K) (cs : List (Chain K)) (hwf : a.samples.WF) (hshift : setting a .shiftParams = false)
    (h : Chain.make a = .ok c) (hdiv : c.divide = .ok cs) (d : Chain K) (hd : d ∈ cs) :
    Chain.make (ownArgs a d) = .ok { d with userSet := givenKeys a } ∧ (∀ k, k ∈ d.userSet ↔ k ≠ .color) ∧
      d.samples.toRaw.WF ∧ d.cfg .color = none ∧ ∀ k, k ≠ .color → d.cfg k = c.cfg k := by
  obtain ⟨hw, hg, -, hall⟩ := divide_ok_iff.1 hdiv
  obtain ⟨i, hi, hmk⟩ : ∃ i, i ∈ List.range c.walkers ∧ Chain.make (c.walkerArgs i (c.samples.rows
      (i * (c.samples.index.length / c.walkers)) (c.samples.index.length / c.walkers))) = .ok d := by
    obtain ⟨j, hj, rfl⟩ := List.mem_iff_getElem.1 hd
    have hl := hall.length_eq
    exact ⟨_, List.getElem_mem (by omega), hall.get (by omega) hj⟩
  generalize i * (c.samples.index.length / c.walkers) = s at hmk
  generalize c.samples.index.length / c.walkers = n at hmk
  have hA := (C07_constructor_accepts_iff a hwf hshift).1 ⟨c, h⟩
  obtain ⟨w1, w2, w3, w4, w5, w6⟩ := make_WF hwf h
  obtain ⟨-, -, -, -, -, -, ⟨st, hst1, -, -⟩, -, hk⟩ := C07_accepted_chain_guarantees a c hwf hshift h
  obtain ⟨e1, -⟩ := accepted_settings hwf hshift h
  obtain ⟨hds, W⟩ := block_make hwf hshift h hmk
  have hrow := rows_WF w1 s n
  have hdwf : d.samples.toRaw.WF := toRaw_WF.2 (by rw [hds]; exact hrow)
  have hs : setting (c.walkerArgs i (c.samples.rows s n)) .shiftParams = false := by
    rw [walker_setting]; simpa using e1
  have hB := (C07_constructor_accepts_iff _ (toRaw_WF.2 hrow) hs).1 ⟨d, hmk⟩
  have hs' : setting (ownArgs a d) .shiftParams = false := by
    rw [own_setting]; simpa using hshift
  have hawc : a.weightColumn = c.weightColumn := by
    obtain ⟨_, _, _, _, _, _, _, _, _, _, _, _, _, _, rfl⟩ := Chain.make_ok_iff.1 h
    rfl
  have hsam : (ownArgs a d).samples = (c.walkerArgs i (c.samples.rows s n)).samples := by
    simp only [ownArgs, Chain.walkerArgs, hds]
  have hwcc : (ownArgs a d).weightColumn = (c.walkerArgs i (c.samples.rows s n)).weightColumn := hawc
  obtain ⟨e, he⟩ := (C07_constructor_accepts_iff (ownArgs a d) hdwf hs').2 (by
    refine ⟨?_, ?_, ?_, by simp [ownArgs], hA.freeParams, hA.effPoints, hA.height, ?_, ?_, ?_, ?_, ?_, ?_, by simp [ownArgs], ?_, ?_⟩
    · rw [own_setting]; simp [Cfg.default, ColourOk]
    · rw [own_setting]; simpa using hA.area
    · rw [own_setting]; simpa using hA.markerSize
    · rw [hsam]; exact hB.hasRow
    · rw [hsam]; exact hB.hasColumn
    · rw [hsam]; exact hB.labels
    · rw [hsam]; exact hB.finite
    · rw [hsam, hwcc]; exact hB.weights
    · rw [hsam, hwcc]; exact hB.weightColumn
    · intro p hp
      rw [own_setting, if_neg (by simp)] at hp
      have := hB.colourColumn p (by rw [walker_setting, if_neg (by simp), hk _ (by simp) (by simp)]; exact hp)
      unfold finalLabels at this ⊢
      rw [hsam, hwcc]
      exact this
    · rw [own_setting, own_setting, if_neg (by simp), if_neg (by simp)]
      exact hA.multimodal)
  have hsame : e.samples = d.samples :=
    (make_toRaw (by rw [hds]; exact hrow) rfl (by rw [hds, rows_columns]; rw [hwcc]; exact w4) he).2 hs'
  have hus : d.userSet = Key.all.filter (· ≠ .color) := by
    obtain ⟨_, _, _, _, _, _, _, _, _, _, _, _, _, _, rfl⟩ := Chain.make_ok_iff.1 hmk
    simp only [Chain.walkerArgs, Chain.dumpConfig, List.map_map, Function.comp_def, List.map_id']
  refine ⟨?_, fun k => ?_, hdwf, W.colour, W.settings⟩
  · rw [he]
    have hcst : c.cfg .statistics = match setting a .statistics with
        | none => if setting a .multimodal then some .hdi else some .max
        | some s => some s := by
      obtain ⟨_, _, _, _, _, _, _, _, _, _, _, _, _, _, rfl⟩ := Chain.make_ok_iff.1 h
      simp only [resolveStatistics_statistics]
      rw [set_color_ne (by simp), set_color_ne (by simp)]
      rfl
    obtain ⟨_, _, _, _, _, _, _, _, _, _, _, _, _, _, hc⟩ := Chain.make_ok_iff.1 h
    obtain ⟨col, raw, f0, f1, g1, g2, g3, g4, g5, g6, g7, g8, g9, g10, hee⟩ := Chain.make_ok_iff.1 he
    have hcol : col = none := by
      change validateColor (setting (ownArgs a d) .color) = _ at g1
      rw [own_setting] at g1
      simp only [if_true, Cfg.default, validateColor] at g1
      cases g1; rfl
    have hset : ∀ k, k ≠ .color → ((Cfg.default K).apply (ownArgs a d).config) k = setting a k := by
      intro k hk
      have := own_setting a d k
      rwa [if_neg hk] at this
    have hcfg : e.cfg = d.cfg := by
      funext k
      rw [hee]
      by_cases hkc : k = .color
      · subst hkc
        rw [W.colour]
        simp [resolveStatistics_ne (k := .color), hcol, Cfg.set]
      · rw [W.settings k hkc]
        by_cases hks : k = .statistics
        · subst hks
          rw [hcst]
          simp only [resolveStatistics_statistics, set_color_ne hkc]
          rw [set_color_ne (by simp), hset _ hkc, hset _ (by simp)]
          cases setting a .statistics <;> rfl
        · simp only [resolveStatistics_ne hks, set_color_ne hkc]
          rw [hset k hkc, hk k hkc hks]
    have huse : e.userSet = givenKeys a := by
      rw [hee]
      simp only [ownArgs, givenKeys, List.filter_map]
      rfl
    obtain ⟨c1, c2, c3, c4, c5, c6, c7, c8, c9, c10, c11, c12, c13⟩ := c
    obtain ⟨d1, d2, d3, d4, d5, d6, d7, d8, d9, d10, d11, d12, d13⟩ := d
    obtain ⟨e1, e2, e3, e4, e5, e6, e7, e8, e9, e10, e11, e12, e13⟩ := e
    obtain ⟨W1, W2, -, -, W5, W6, W7, W8, W9, W10, W11, W12⟩ := W
    simp only [Chain.mk.injEq] at hc hee
    dsimp only at *
    obtain ⟨-, -, -, k4, k5, k6, k7, k8, k9, k10, k11, k12, k13⟩ := hc
    obtain ⟨-, -, -, l4, l5, l6, l7, l8, l9, l10, l11, l12, l13⟩ := hee
    simp only [ownArgs] at l4 l5 l6 l7 l8 l9 l10 l11 l12 l13
    simp only [Except.ok.injEq, Chain.mk.injEq]
    refine ⟨hcfg, huse, hsame, l4, ?_, ?_, ?_, ?_, ?_, ?_, ?_, ?_, ?_⟩
    · rw [l5, W5, k5]
    · rw [l6, W6, k6]
    · rw [l7, W2]; rfl
    · rw [l8, W7, k8]
    · rw [l9, W8, k9]
    · rw [l10, W9, k10]
    · rw [l11, W10, k11]
    · rw [l12, W11, k12]
    · rw [l13, W12, k13]
  · rw [hus]
    cases k <;> decide

/-- **C136** (walkers as chains). A chain of the samples of a walker, with the settings that the user gave to the whole chain, is
accepted and is the walker, besides the list of settings that count as given: for the walker these are all but the colour. -/
theorem C136_own (a : Args K) (c : Chain K) (cs : List (Chain K)) (hwf : a.samples.WF) (hshift : setting a .shiftParams = false)
    (h : Chain.make a = .ok c) (hdiv : c.divide = .ok cs) (d : Chain K) (hd : d ∈ cs) :
    Chain.make (ownArgs a d) = .ok { d with userSet := givenKeys a } ∧ ∀ k, k ∈ d.userSet ↔ k ≠ .color := by
  obtain ⟨h1, h2, -⟩ := own_core a c cs hwf hshift h hdiv d hd
  exact ⟨h1, h2⟩

end

/-! ### the settings chosen for a registry -/

/-- The same chain with the same settings, besides those of the shading, and another record of what was given. -/
def Spec.LikeOwn (e e' : Chain ℝ) : Prop :=
  e' = { e with cfg := e'.cfg, userSet := e'.userSet } ∧ ∀ k, k ∉ [Key.shade, .barShade, .shadeAlpha] → e'.cfg k = e.cfg k

/-- `d` is a walker of a chain, and `e` the chain of its samples with the settings given by the user. -/
def Spec.OwnPair (d e : Chain ℝ) : Prop :=
  ∃ (a : Args ℝ) (c : Chain ℝ) (cs : List (Chain ℝ)), a.samples.WF ∧ setting a .shiftParams = false ∧ Chain.make a = .ok c ∧
    c.divide = .ok cs ∧ d ∈ cs ∧ Chain.make (ownArgs a d) = .ok e

theorem ungiven_setting {K : Type} (kw : List (Kwarg K)) (c : Cfg K) (k : Key) (hk : k ∉ kw.map (·.1)) : c.apply kw k = c k := by
  induction kw generalizing c with
  | nil => rfl
  | cons x kw ih =>
    simp only [List.map_cons, List.mem_cons, not_or] at hk
    refine (ih (c.set x) hk.2).trans ?_
    simp [Cfg.set, Function.update_of_ne hk.1]

theorem ownPair {d e : Chain ℝ} (h : OwnPair d e) : ∃ a : Args ℝ, e = { d with userSet := givenKeys a } ∧ (∀ k, k ∈ d.userSet ↔ k ≠ .color) ∧
    (∀ k, k ∉ givenKeys a → k ≠ .color → k ≠ .statistics → d.cfg k = Cfg.default ℝ k) ∧ d.cfg .color = none := by
  obtain ⟨a, c, cs, hwf, hs, hc, hdiv, hd, he⟩ := h
  obtain ⟨h1, h2, h3, h4, -⟩ := own_core a c cs hwf hs hc hdiv d hd
  rw [he] at h1
  cases h1
  obtain ⟨-, -, -, -, -, -, -, -, hk⟩ := C07_accepted_chain_guarantees _ _ h3 (by rw [own_setting]; simpa using hs) he
  refine ⟨a, rfl, h2, ?_, h4⟩
  intro k hg h1 h2
  rw [hk k h1 h2, own_setting, if_neg h1]
  refine ungiven_setting _ _ _ fun hm => hg ?_
  simp only [givenKeys, List.mem_filter]
  exact ⟨hm, by simpa using h1⟩

theorem resolved_ownPair (ov : Option (Config ℝ)) (n : Nat) (col : String) {d e : Chain ℝ} (h : OwnPair d e) {k : Key}
    (hk : k ∉ [Key.shade, .barShade, .shadeAlpha]) : Spec.resolved ov e.userSet n e.cfg col k = Spec.resolved ov d.userSet n d.cfg col k := by
  obtain ⟨a, rfl, h1, h2, h3⟩ := ownPair h
  have key : (if k ∈ givenKeys a then d.cfg k else (auto n d.cfg col k).getD (d.cfg k)) =
      if k ∈ d.userSet then d.cfg k else (auto n d.cfg col k).getD (d.cfg k) := by
    by_cases hc : k = .color
    · have n1 : k ∉ d.userSet := fun hm => (h1 k).1 hm hc
      have n2 : k ∉ givenKeys a := by simp [givenKeys, hc]
      rw [if_neg n1, if_neg n2]
    · rw [if_pos ((h1 k).2 hc)]
      split
      · rfl
      · rename_i hg
        by_cases hs : k = .sigmas
        · subst hs
          rw [h2 _ hg (by simp) (by simp)]
          rfl
        · have : auto n d.cfg col k = none := by
            cases k <;> first | rfl | exact absurd rfl hs | exact absurd rfl hc | simp at hk
          rw [this]
          rfl
  simp only [Spec.resolved, key]

/-- **C136** (settings). In a registry in which chains of their own take the places of walkers, every chain gets the same settings,
besides those of the shading: colours, statistics, levels, bins and so on. -/
theorem C136_settings {h h' : Heap ℝ} {s s' : Consumer ℝ} (hov : s'.override = s.override)
    (hes : List.Forall₂ (fun x y => y.1 = x.1 ∧ (y.2 = x.2 ∨ OwnPair x.2 y.2)) (copyChains h s) (copyChains h' s'))
    (hu : uncoloured (chainsOf h s) ≤ 88) : ∃ D D', finalDict h s = .ok D ∧ finalDict h' s' = .ok D' ∧
      List.Forall₂ (fun e e' => e'.1 = e.1 ∧ LikeOwn e.2 e'.2) D D' := by
  have hcfg : ∀ {x y : String × Chain ℝ}, (y.1 = x.1 ∧ (y.2 = x.2 ∨ OwnPair x.2 y.2)) → y.2.cfg = x.2.cfg := by
    rintro x y ⟨-, h | h⟩
    · rw [h]
    · obtain ⟨a, h, -⟩ := ownPair h
      rw [h]
  have hn : numContourChains h' s' = numContourChains h s := by
    rw [numContourChains_copies, numContourChains_copies]
    generalize copyChains h s = l at hes
    generalize copyChains h' s' = l' at hes
    clear hu
    induction hes with
    | nil => rfl
    | cons hx _ ih => simp only [List.filter_cons, hcfg hx]; split <;> simp [ih]
  have hu' : uncoloured (chainsOf h' s') = uncoloured (chainsOf h s) := by
    unfold uncoloured chainsOf
    generalize copyChains h s = l at hes
    generalize copyChains h' s' = l' at hes
    clear hu
    induction hes with
    | nil => rfl
    | cons hx _ ih => simp only [List.map_cons, List.filter_cons, hcfg hx]; split <;> simp [ih]
  refine ⟨_, _, finalDict_entries hu, finalDict_entries (hu'.trans_le hu), ?_⟩
  rw [hn, hov]
  generalize copyChains h s = l at hes
  generalize copyChains h' s' = l' at hes
  generalize numContourChains h s = n
  generalize (0 : Nat) = u
  clear hu hu' hn
  induction hes generalizing u with
  | nil => exact .nil
  | @cons x y _ _ hx _ ih =>
    have hc := hcfg hx
    unfold finalEntries at ih ⊢
    simp only [List.map_cons, resolvedChains, List.zip_cons_cons, hc]
    refine .cons ⟨hx.1, ?_, ?_⟩ (ih _)
    · rcases hx.2 with h | h
      · simp only [h, Chain.withCfg]
      · obtain ⟨a, h, -⟩ := ownPair h
        simp only [h, Chain.withCfg]
    · intro k hk
      rcases hx.2 with h | h
      · simp only [h, Chain.withCfg]
      · have := resolved_ownPair s.override n (autoColours.getD u "") h hk
        rw [hc] at this
        exact this

theorem summaryLoop_like (kde : KdeFn) (cols : List String) {D D' : List (String × Chain ℝ)}
    (h : List.Forall₂ (fun e e' => e'.1 = e.1 ∧ LikeOwn e.2 e'.2) D D') (res : List (String × List (String × Summary ℝ))) :
    summaryLoop kde cols (D'.map Prod.snd) res = summaryLoop kde cols (D.map Prod.snd) res := by
  have h1 : summaryLoop kde cols (D'.map Prod.snd) res =
      summaryLoop kde cols ((D.zip D').map fun p => p.1.2.withCfg p.2.2.cfg) res := by
    apply summaryLoop_bare
    induction h with
    | nil => rfl
    | cons hx _ ih =>
      simp only [List.map_cons, List.zip_cons_cons, ih]
      congr 1
      rw [hx.2.1]
      rfl
  rw [h1]
  clear h1
  induction h generalizing res with
  | nil => rfl
  | @cons e e' _ _ hx _ ih =>
    have hk : ∀ k ∈ summaryKeys, e'.2.cfg k = e.2.cfg k := by
      intro k hk
      refine hx.2.2 k fun hm => ?_
      simp only [summaryKeys, List.mem_cons, List.not_mem_nil, or_false] at hk hm
      rcases hk with rfl | rfl | rfl | rfl | rfl | rfl <;> simp at hm
    simp only [List.map_cons, List.zip_cons_cons, summaryLoop, chainSummary_withCfg kde e.2 _ hk, ih]
    rfl

/-- **C136** (summaries). Hence the summaries are the same, under any override. -/
theorem C136_summary (kde : KdeFn) {h h' : Heap ℝ} {s s' : Consumer ℝ} (hov : s'.override = s.override)
    (hes : List.Forall₂ (fun x y => y.1 = x.1 ∧ (y.2 = x.2 ∨ OwnPair x.2 y.2)) (copyChains h s) (copyChains h' s'))
    (hu : uncoloured (chainsOf h s) ≤ 88) (cols : List String) :
    getSummary kde h' s' none (some cols) = getSummary kde h s none (some cols) := by
  obtain ⟨D, D', hD, hD', hall⟩ := C136_settings hov hes hu
  simp only [getSummary, hD, hD', plotChains, bind, Except.bind, pure, Except.pure, sanitiseColumns, Bool.true_or, List.filter_true]
  exact summaryLoop_like kde cols hall []

/-! ### the shading -/

/-- **C136** is violated by the shading: whatever else is plotted (without override), walkers are shaded as the whole chain was made
to be, while a chain of their samples is shaded exactly if fewer than five chains show contours; so with five of these the walkers of a
chain made with default shading are shaded, and the chains of their samples are not. -/
theorem C136_violated {h h' : Heap ℝ} {s s' : Consumer ℝ} (hov : s.override = none) (hov' : s'.override = none)
    (hu : uncoloured (chainsOf h s) ≤ 88) (hu' : uncoloured (chainsOf h' s') ≤ 88) (a : Args ℝ) (c : Chain ℝ) (cs : List (Chain ℝ))
    (hwf : a.samples.WF) (hshift : setting a .shiftParams = false) (hc : Chain.make a = .ok c) (hdiv : c.divide = .ok cs)
    (hgiven : .shade ∉ a.config.map (·.1) ∧ .barShade ∉ a.config.map (·.1)) (d : Chain ℝ) (hd : d ∈ cs) (i j : Nat) (n : String)
    (hi : (copyChains h s)[i]? = some (n, d)) (hj : (copyChains h' s')[j]? = some (n, { d with userSet := givenKeys a }))
    (h5 : 5 ≤ numContourChains h' s') :
    ∃ D D' e e', finalDict h s = .ok D ∧ finalDict h' s' = .ok D' ∧ D[i]? = some (n, e) ∧ D'[j]? = some (n, e') ∧
      e.cfg .shade = true ∧ e.cfg .barShade = true ∧ e'.cfg .shade = false ∧ e'.cfg .barShade = false := by
  obtain ⟨D, hD, hD1⟩ := finalDict_entry hu
  obtain ⟨D', hD', hD1'⟩ := finalDict_entry hu'
  obtain ⟨col, e1⟩ := hD1 i n d hi
  obtain ⟨col', e1'⟩ := hD1' j n _ hj
  obtain ⟨k1, k2, k3, k4, k5⟩ := own_core a c cs hwf hshift hc hdiv d hd
  obtain ⟨-, -, -, -, -, -, -, -, hk⟩ := C07_accepted_chain_guarantees a c hwf hshift hc
  have hx : ∀ k, k ∉ a.config.map (·.1) → k ≠ .color → k ≠ .statistics → d.cfg k = Cfg.default ℝ k := by
    intro k h1 h2 h3
    rw [k5 k h2, hk k h2 h3]
    exact ungiven_setting _ _ _ h1
  have hg : ∀ k, k ∉ a.config.map (·.1) → k ∉ givenKeys a := by
    intro k h1 h2
    exact h1 (List.mem_filter.1 h2).1
  have hlt : ¬ numContourChains h' s' < 5 := by omega
  refine ⟨D, D', _, _, hD, hD', e1, e1', ?_, ?_, ?_, ?_⟩
  · simp only [Chain.withCfg, Spec.resolved, hov, if_pos ((k2 _).2 (by simp : Key.shade ≠ .color))]
    rw [hx _ hgiven.1 (by simp) (by simp)]
    rfl
  · simp only [Chain.withCfg, Spec.resolved, hov, if_pos ((k2 _).2 (by simp : Key.barShade ≠ .color))]
    rw [hx _ hgiven.2 (by simp) (by simp)]
    rfl
  · simp only [Chain.withCfg, Spec.resolved, hov', if_neg (hg _ hgiven.1)]
    simp [auto, hlt]
  · simp only [Chain.withCfg, Spec.resolved, hov', if_neg (hg _ hgiven.2)]
    simp [auto, hlt]

/-- **C136** is violated by the opacity as well: that of walkers stays that of the whole chain, one half by default, for any number of
walkers. For four walkers this happens to be the opacity of four chains. -/
theorem C136_violated_opacity {h h' : Heap ℝ} {s s' : Consumer ℝ} (hov : s.override = none) (hov' : s'.override = none)
    (hu : uncoloured (chainsOf h s) ≤ 88) (hu' : uncoloured (chainsOf h' s') ≤ 88) (a : Args ℝ) (c : Chain ℝ) (cs : List (Chain ℝ))
    (hwf : a.samples.WF) (hshift : setting a .shiftParams = false) (hc : Chain.make a = .ok c) (hdiv : c.divide = .ok cs)
    (hgiven : .shadeAlpha ∉ a.config.map (·.1)) (d : Chain ℝ) (hlab : d.cfg .showContourLabels = false) (hd : d ∈ cs) (i j : Nat) (n : String)
    (hi : (copyChains h s)[i]? = some (n, d)) (hj : (copyChains h' s')[j]? = some (n, { d with userSet := givenKeys a }))
    (h0 : 0 < numContourChains h' s') :
    ∃ D D' e e' x, finalDict h s = .ok D ∧ finalDict h' s' = .ok D' ∧ D[i]? = some (n, e) ∧ D'[j]? = some (n, e') ∧
      e.cfg .shadeAlpha = .fin (1 / 2) ∧ e'.cfg .shadeAlpha = .fin x ∧ x = 1 / Real.sqrt (numContourChains h' s') ∧
      (x = 1 / 2 ↔ numContourChains h' s' = 4) := by
  obtain ⟨D, hD, hD1⟩ := finalDict_entry hu
  obtain ⟨D', hD', hD1'⟩ := finalDict_entry hu'
  obtain ⟨col, e1⟩ := hD1 i n d hi
  obtain ⟨col', e1'⟩ := hD1' j n _ hj
  obtain ⟨k1, k2, k3, k4, k5⟩ := own_core a c cs hwf hshift hc hdiv d hd
  obtain ⟨-, -, -, -, -, -, -, -, hk⟩ := C07_accepted_chain_guarantees a c hwf hshift hc
  have hg : .shadeAlpha ∉ givenKeys a := fun h2 => hgiven (List.mem_filter.1 h2).1
  refine ⟨D, D', _, _, 1 / Real.sqrt (numContourChains h' s'), hD, hD', e1, e1', ?_, ?_, rfl, ?_⟩
  · simp only [Chain.withCfg, Spec.resolved, hov, if_pos ((k2 _).2 (by simp : Key.shadeAlpha ≠ .color))]
    rw [k5 _ (by simp), hk _ (by simp) (by simp)]
    exact ungiven_setting _ _ _ hgiven
  · simp only [Chain.withCfg, Spec.resolved, hov', if_neg hg]
    simp [auto, autoAlpha, hlab, h0.ne']
  · generalize numContourChains h' s' = m at h0
    have hm : (0 : ℝ) ≤ m := Nat.cast_nonneg m
    rw [one_div, one_div, inv_inj, Real.sqrt_eq_iff_eq_sq hm (by norm_num)]
    constructor
    · intro e
      have : (m : ℝ) = (4 : Nat) := by rw [e]; norm_num
      exact_mod_cast this
    · rintro rfl
      norm_num

/-- The hypotheses are met by a chain of five walkers, of one sample each, with default settings: its walkers, and the chains of their
samples, can be added to an empty registry each, and all ten show contours. -/
example : ∃ (h h' : Heap ℝ) (s s' : Consumer ℝ) (a : Args ℝ) (c : Chain ℝ) (cs : List (Chain ℝ)), a.samples.WF ∧
    setting a .shiftParams = false ∧ Chain.make a = .ok c ∧ c.divide = .ok cs ∧ cs.length = 5 ∧ a.config = [] ∧
    addAll h {} [0, 1, 2, 3, 4] = .ok s ∧ addAll h' {} [0, 1, 2, 3, 4] = .ok s' ∧ s.override = none ∧ s'.override = none ∧
    copyChains h s = cs.map (fun d => (d.name, d)) ∧ copyChains h' s' = cs.map (fun d => (d.name, { d with userSet := givenKeys a })) ∧
    numContourChains h' s' = 5 ∧ uncoloured (chainsOf h s) ≤ 88 ∧ uncoloured (chainsOf h' s') ≤ 88 ∧
    ∀ d ∈ cs, d.cfg .showContourLabels = false := by
  let f : Frame ℝ := { index := [.int 0, .int 1, .int 2, .int 3, .int 4], cols := [("a", [1, 2, 5, 7, 8]), ("weight", [3, 3, 3, 3, 3])] }
  have hf : f.WF := ⟨by simp [f], by simp [f]⟩
  obtain ⟨c, hc, -, -, -, -, hg, hk, hn⟩ :=
    plain_chain_walkers f hf (by simp [f]) (w := [3, 3, 3, 3, 3]) rfl (by simp) "c" 5 (by simp) (by simp [f])
  obtain ⟨cs, hdiv⟩ := C11_divide_succeeds_partial _ _ (toRaw_WF.2 hf) rfl hc (by simp [hk]) hg
  have hl := congrArg List.length (divide_names hdiv)
  simp only [List.length_map, List.length_range, hk] at hl
  have hnames := (List.nodup_cons.1 (C135_walker_names c cs hdiv)).2
  have hset : ∀ d ∈ cs, d.cfg .plotContour = true ∧ d.cfg .showContourLabels = false := by
    intro d hd
    obtain ⟨-, -, -, -, k5⟩ := own_core _ c cs (toRaw_WF.2 hf) rfl hc hdiv d hd
    obtain ⟨-, -, -, -, -, -, -, -, hk⟩ := C07_accepted_chain_guarantees _ c (toRaw_WF.2 hf) rfl hc
    exact ⟨(k5 _ (by simp)).trans (hk _ (by simp) (by simp)), (k5 _ (by simp)).trans (hk _ (by simp) (by simp))⟩
  have hun : ∀ l : List (Chain ℝ), uncoloured l ≤ l.length := fun l => List.length_filter_le _ _
  match cs, hl with
  | [d0, d1, d2, d3, d4], _ =>
    let own : Chain ℝ → Chain ℝ := fun d => { d with userSet := [] }
    simp only [List.map_cons, List.map_nil] at hnames
    simp only [List.forall_mem_cons, List.not_mem_nil, IsEmpty.forall_iff, implies_true, and_true] at hset
    obtain ⟨⟨p0, q0⟩, ⟨p1, q1⟩, ⟨p2, q2⟩, ⟨p3, q3⟩, ⟨p4, q4⟩⟩ := hset
    refine ⟨[d0, d1, d2, d3, d4], [own d0, own d1, own d2, own d3, own d4],
      { chains := [(d0.name, 0), (d1.name, 1), (d2.name, 2), (d3.name, 3), (d4.name, 4)] },
      { chains := [(d0.name, 0), (d1.name, 1), (d2.name, 2), (d3.name, 3), (d4.name, 4)] },
      _, c, _, toRaw_WF.2 hf, rfl, hc, hdiv, rfl, rfl, ?_, ?_, rfl, rfl, rfl, rfl, ?_, ?_, ?_, ?_⟩
    · exact addAll_ok_iff.2 ⟨[d0, d1, d2, d3, d4], .cons rfl (.cons rfl (.cons rfl (.cons rfl (.cons rfl .nil)))), hnames, by simp, by simp⟩
    · exact addAll_ok_iff.2 ⟨[own d0, own d1, own d2, own d3, own d4], .cons rfl (.cons rfl (.cons rfl (.cons rfl (.cons rfl .nil)))),
        hnames, by simp, by simp [own]⟩
    · rw [numContourChains_copies]
      simp [copyChains, own, p0, p1, p2, p3, p4]
    · exact (hun _).trans (by simp [chainsOf, copyChains])
    · exact (hun _).trans (by simp [chainsOf, copyChains])
    · simp [q0, q1, q2, q3, q4]

end CC
