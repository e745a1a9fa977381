import Verif.Spec.Thinning
import Verif.Model.Figure
import Verif.Lemmas.Except
import Verif.Props.Ranges
import Verif.Lemmas.PlotDemo

/-! # C61: thinned walks and clouds -/

set_option linter.unusedSectionVars false

namespace CC
open Spec

theorem everyNth_spec {α : Type} {k : Nat} (hk : 1 ≤ k) (l : List α) : EveryKth k l (everyNth k l) := by
  intro i
  induction l using everyNth.induct k generalizing i with
  | case1 => simp [everyNth]
  | case2 x xs ih =>
    rw [everyNth]
    cases i with
    | zero => simp
    | succ i =>
      rw [List.getElem?_cons_succ, ih, List.getElem?_drop]
      have : (i + 1) * k = (k - 1 + i * k) + 1 := by
        rw [Nat.succ_mul]; omega
      rw [this, List.getElem?_cons_succ]

/-- How many entries there are. -/
theorem everyKth_length {α : Type} {k : ℕ} {data out : List α} (h : EveryKth k data out) :
    data.length ≤ out.length * k ∧ (∀ n, n < out.length → n * k < data.length) := by
  constructor
  · have := h out.length
    rw [List.getElem?_eq_none_iff.2 le_rfl] at this
    exact List.getElem?_eq_none_iff.1 this.symm
  · intro n hn
    have := h n
    rw [List.getElem?_eq_getElem hn] at this
    exact (List.getElem?_eq_some_iff.1 this.symm).1

/-- The thinned list: no more than twice the limit, and unchanged within the limit. -/
theorem thin_spec {α : Type} (v : List α) :
    ∃ k, 1 ≤ k ∧ EveryKth k v (thin v) ∧ (v.length ≤ 100000 → thin v = v) ∧
      (thin v).length ≤ 2 * 100000 ∧ (100000 ≤ v.length → 100000 ≤ (thin v).length) := by
  have hM : maxPoints = 100000 := by rw [maxPoints]
  unfold thin
  by_cases h : maxPoints < v.length
  · rw [if_pos h]
    rw [hM] at h ⊢
    have hk : 1 ≤ v.length / 100000 := by omega
    have hs := everyNth_spec hk v
    obtain ⟨h1, h2⟩ := everyKth_length hs
    refine ⟨_, hk, hs, fun h' => by omega, ?_, fun _ => ?_⟩
    · by_contra hc
      have h3 := h2 (2 * 100000) (by omega)
      omega
    · by_contra hc
      have h4 : (everyNth (v.length / 100000) v).length * (v.length / 100000) ≤ 99999 * (v.length / 100000) :=
        Nat.mul_le_mul_right _ (by omega)
      omega
  · rw [if_neg h]
    rw [hM] at h
    exact ⟨1, le_rfl, fun i => by rw [Nat.mul_one], fun _ => rfl, by omega, fun h' => h'⟩

theorem zip_range_map {α β : Type} (g : Nat → β) (l : List α) (m : Nat) (h : l.length = m) :
    ((List.range m).map g).zip l = l.zipIdx.map fun e => (g e.2, e.1) := by
  subst h
  refine List.ext_getElem (by simp) fun i h1 h2 => ?_
  simp

theorem map_getD_range (l : List String) : (List.range l.length).map (fun i => l.getD i "") = l := by
  refine List.ext_getElem (by simp) fun i h1 h2 => ?_
  rw [List.getElem_map, List.getElem_range, List.getD_eq_getElem?_getD, List.getElem?_eq_getElem h2, Option.getD_some]

/-- The panels of `plot_walks`: the extra ones, then one for each column. -/
theorem plotWalks_panels {cfg : PlotConfig} {truths : List (Truth ℝ)} {pw pp lw : Bool} {b : PlottingBase} {fig : Fig}
    (h : plotWalksBase cfg truths pw pp lw b = .ok fig) :
    ∃ post : Bool, (post = true ↔ pp = true ∧ ∃ c ∈ b.chains, c.logPosterior.isSome = true) ∧
    ∃ extra : List (List Call), ∃ main : List (List Call),
      fig.panels = (extra ++ main).zipIdx.map (fun e => ((e.2, 0), e.1)) ∧
      List.Forall₂ (fun p calls => walkPanel cfg b truths p = .ok calls) b.columns main ∧
      List.Forall₂ (fun r calls => r = .ok calls)
        ((if post then [posteriorPanel cfg b] else []) ++ (if pw then [weightPanel cfg b lw] else [])) extra := by
  refine ⟨pp && b.chains.any fun c => c.logPosterior.isSome, by simp, ?_⟩
  simp only [plotWalksBase, bind_ok_iff, pure_ok_iff] at h
  obtain ⟨-, -, panels, hp, rfl⟩ := h
  generalize (pp && b.chains.any fun c => c.logPosterior.isSome) = post at hp ⊢
  have hlen := (mapM_ok_iff.1 hp).length_eq
  rw [List.length_range] at hlen
  rw [Nat.add_comm b.columns.length, List.range_add, List.mapM_append] at hp
  simp only [bind_ok_iff, pure_ok_iff] at hp
  obtain ⟨extra, he, main, hm, rfl⟩ := hp
  refine ⟨extra, main, zip_range_map _ _ _ hlen.symm, ?_, ?_⟩
  · have h2 := mapM_ok_iff.1 hm
    rw [List.forall₂_map_left_iff] at h2
    rw [← map_getD_range b.columns, List.forall₂_map_left_iff]
    refine h2.imp fun i calls hi => ?_
    rw [if_pos (Nat.le_add_right _ _), Nat.add_sub_cancel_left] at hi
    exact hi
  · have h2 := mapM_ok_iff.1 he
    cases post <;> cases pw
    · simpa using h2
    · simpa [List.range_succ, List.forall₂_cons_left_iff] using h2
    · simpa [List.range_succ, List.forall₂_cons_left_iff] using h2
    · have e : List.range (1 + 1) = [0, 1] := rfl
      simp only [if_true, e] at h2
      simpa [List.forall₂_cons_left_iff] using h2

/-- The walk shown by a call. -/
def walkOf : Call → Option (String × List ℝ)
  | .walk n v => some (n, v)
  | _ => none

/-- `out` is a thinned version of `data` fit for a plot. -/
structure Spec.Shown (data out : List ℝ) : Prop where
  rows : ∃ k, 1 ≤ k ∧ EveryKth k data out
  first : data.head? = out.head?
  short : data.length ≤ 100000 → out = data
  bounded : out.length ≤ 2 * 100000
  dense : 100000 ≤ data.length → 100000 ≤ out.length

theorem thin_shown (v : List ℝ) : Shown v (thin v) := by
  obtain ⟨k, hk, h1, h2, h3, h4⟩ := thin_spec v
  refine ⟨⟨k, hk, h1⟩, ?_, h2, h3, h4⟩
  have := h1 0
  rw [Nat.zero_mul] at this
  rw [List.head?_eq_getElem?, List.head?_eq_getElem?, this]

theorem setLim_walkOf {d : Dir} {e : Option (Option (ℝ × ℝ))} {c : Call} (h : setLim d e = .ok c) : walkOf c = none := by
  unfold setLim at h
  split at h <;> cases h
  rfl

theorem plotWalk_walks {chain label : String} {values : List ℝ} {extents : Option (Option (ℝ × ℝ))} {log : Bool}
    {calls : List Call} (h : plotWalk chain label values extents log = .ok calls) :
    calls.filterMap walkOf = [(chain, values)] ∧ values ≠ [] := by
  have key : ∀ lim : List Call, lim.filterMap walkOf = [] →
      (lim ++ [Call.lim .x 0 ((values.length : ℝ) - 1), .axisLabel .y label, .walk chain values] ++
        (if log then [Call.logScale .y, .logLocator .y] else [.maxNLocator .y])).filterMap walkOf = [(chain, values)] := by
    intro lim hl
    rw [List.filterMap_append, List.filterMap_append, hl]
    cases log <;> rfl
  simp only [plotWalk, bind_ok_iff, pure_ok_iff, ensure_ok_iff, Bool.not_eq_true', List.isEmpty_eq_false_iff] at h
  obtain ⟨lim, hlim, -, hne, rfl⟩ := h
  refine ⟨key _ ?_, hne⟩
  cases extents with
  | none => cases hlim; rfl
  | some e =>
    simp only [walkLim, bind_ok_iff, pure_ok_iff] at hlim
    obtain ⟨l, hl, rfl⟩ := hlim
    simp [setLim_walkOf hl]

theorem flatMap_walks {α : Type} (f : α → Res (List Call)) (g : α → Bool) (Q : α → String × List ℝ → Prop) (l : List α)
    (r : List (List Call)) (h : l.mapM f = .ok r)
    (h0 : ∀ a ∈ l, g a = false → ∀ calls, f a = .ok calls → calls.filterMap walkOf = [])
    (h1 : ∀ a ∈ l, g a = true → ∀ calls, f a = .ok calls → ∃ w, calls.filterMap walkOf = [w] ∧ Q a w) :
    List.Forall₂ Q (l.filter g) (r.flatten.filterMap walkOf) := by
  replace h := mapM_ok_iff.1 h
  induction h with
  | nil => exact .nil
  | @cons a calls l r ha _ ih =>
    have ih := ih (fun x hx => h0 x (by simp [hx])) (fun x hx => h1 x (by simp [hx]))
    rw [List.flatten_cons, List.filterMap_append]
    cases hg : g a
    · rw [h0 a (by simp) hg calls ha, List.filter_cons_of_neg (by simp [hg])]
      exact ih
    · obtain ⟨w, hw, hq⟩ := h1 a (by simp) hg calls ha
      rw [hw, List.filter_cons_of_pos hg]
      exact .cons hq ih

/-- **C61** (walks). The panel of a parameter shows, in order, exactly the chains that have it, each by rows
whose index is a multiple of a step, starting with the first row, and by at most 200000 points (all points
up to 100000, never fewer than 100000 of more). -/
theorem C61_walks (cfg : PlotConfig) (b : PlottingBase) (truths : List (Truth ℝ)) (p : String) (calls : List Call)
    (h : walkPanel cfg b truths p = .ok calls) :
    List.Forall₂ (fun c w => w.1 = c.name ∧ ∃ data, c.samples.get p = .ok data ∧ data ≠ [] ∧ Shown data w.2)
      (b.chains.filter fun c => decide (p ∈ c.dataColumns)) (calls.filterMap walkOf) := by
  simp only [walkPanel, bind_ok_iff, pure_ok_iff] at h
  obtain ⟨walks, hw, rfl⟩ := h
  have e1 : (truths.flatMap (walkTruth p)).filterMap walkOf = [] := by
    rw [List.filterMap_eq_nil_iff]
    intro a ha
    obtain ⟨t, -, ha⟩ := List.mem_flatMap.1 ha
    unfold walkTruth at ha
    split at ha
    · cases ha
    · rw [List.mem_singleton.1 ha]; rfl
  have e2 : (if p ∈ b.blind then [Call.noTicks .y] else []).filterMap walkOf = [] := by
    split <;> rfl
  rw [List.filterMap_append, List.filterMap_append, e1, e2, List.append_nil, List.append_nil]
  refine flatMap_walks _ _ _ _ _ hw ?_ ?_
  · intro c _ hc calls hcalls
    rw [if_neg (by simpa using hc)] at hcalls
    cases hcalls
    rfl
  · intro c _ hc calls hcalls
    rw [if_pos (by simpa using hc)] at hcalls
    obtain ⟨data, hd, hcalls⟩ := bind_ok_iff.1 hcalls
    obtain ⟨h1, h2⟩ := plotWalk_walks hcalls
    have hs := thin_shown data
    refine ⟨_, h1, rfl, data, hd, ?_, hs⟩
    rintro rfl
    exact h2 (List.head?_eq_none_iff.1 hs.first.symm)

/-- **C61** (extra panels). Likewise for the log posterior, relative to its maximum, and for the weights. -/
theorem C61_extra (cfg : PlotConfig) (b : PlottingBase) (logWeight : Bool) (calls : List Call) :
    (posteriorPanel cfg b = .ok calls →
      List.Forall₂ (fun c w => w.1 = c.name ∧ ∃ l m, c.logPosterior = some l ∧ m ∈ l ∧ (∀ x ∈ l, x ≤ m) ∧
          Shown (l.map fun x => x - m) w.2)
        (b.chains.filter fun c => c.logPosterior.isSome) (calls.filterMap walkOf)) ∧
    (weightPanel cfg b logWeight = .ok calls →
      List.Forall₂ (fun c w => w.1 = c.name ∧ ∃ l, c.weights = .ok l ∧
          Shown (if logWeight then l.map (Real.logb 10) else l) w.2) b.chains (calls.filterMap walkOf)) := by
  constructor
  · intro h
    simp only [posteriorPanel, bind_ok_iff, pure_ok_iff] at h
    obtain ⟨walks, hw, rfl⟩ := h
    refine flatMap_walks _ _ _ _ _ hw ?_ ?_
    · intro c _ hc calls hcalls
      rw [Option.isSome_eq_false_iff, Option.isNone_iff_eq_none] at hc
      rw [hc] at hcalls
      cases hcalls
      rfl
    · intro c _ hc calls hcalls
      obtain ⟨l, hl⟩ := Option.isSome_iff_exists.1 hc
      rw [hl] at hcalls
      obtain ⟨m, hm, hcalls⟩ := bind_ok_iff.1 hcalls
      rw [arrMax_ok_iff] at hm
      exact ⟨_, (plotWalk_walks hcalls).1, rfl, l, m, hl, hm.1, hm.2, thin_shown _⟩
  · intro h
    simp only [weightPanel, bind_ok_iff, pure_ok_iff] at h
    obtain ⟨walks, hw, rfl⟩ := h
    have := flatMap_walks _ (fun _ => true) (fun c w => w.1 = c.name ∧ ∃ l, c.weights = .ok l ∧
          Shown (if logWeight then l.map (Real.logb 10) else l) w.2) _ _ hw (by simp) ?_
    · simpa using this
    · intro c _ _ calls hcalls
      obtain ⟨l, hl, hcalls⟩ := bind_ok_iff.1 hcalls
      refine ⟨_, (plotWalk_walks hcalls).1, rfl, l, hl, ?_⟩
      cases logWeight
      · exact thin_shown l
      · obtain ⟨⟨k, hk, h1⟩, h2, h3, h4, h5⟩ := thin_shown l
        refine ⟨⟨k, hk, fun i => ?_⟩, ?_, ?_, ?_, ?_⟩
        · simp only [if_true, List.getElem?_map, h1 i]
        · simp only [if_true, List.head?_map, h2]
        · intro hl
          simp only [if_true, List.length_map] at hl ⊢
          rw [h3 hl]
        · simpa using h4
        · simpa using h5

/-- **C61** (figure). `plot_walks` has the panels of the posterior and of the weights if asked for, and then one
panel for each column, which shows the walks of that column. -/
theorem C61_figure (cfg : PlotConfig) (truths : List (Truth ℝ)) (pw pp lw : Bool) (b : PlottingBase) (fig : Fig)
    (h : plotWalksBase cfg truths pw pp lw b = .ok fig) :
    ∃ extra main : List (List Call), fig.panels = (extra ++ main).zipIdx.map (fun e => ((e.2, 0), e.1)) ∧
      extra.length = (if pp = true ∧ ∃ c ∈ b.chains, c.logPosterior.isSome = true then 1 else 0) + (if pw then 1 else 0) ∧
      List.Forall₂ (fun p calls =>
        List.Forall₂ (fun c w => w.1 = c.name ∧ ∃ data, c.samples.get p = .ok data ∧ data ≠ [] ∧ Shown data w.2)
          (b.chains.filter fun c => decide (p ∈ c.dataColumns)) (calls.filterMap walkOf)) b.columns main := by
  obtain ⟨post, hpost, extra, main, hf, hm, he⟩ := plotWalks_panels h
  refine ⟨extra, main, hf, ?_, hm.imp fun p calls hc => C61_walks cfg b truths p calls hc⟩
  rw [← he.length_eq, List.length_append]
  congr 1
  · by_cases hp : post = true
    · rw [if_pos hp, if_pos (hpost.1 hp)]; rfl
    · rw [if_neg hp, if_neg fun hc => hp (hpost.2 hc)]; rfl
  · cases pw <;> rfl

/-- **C61** (clouds). The cloud shows the same rows of both parameters and of the colour, those whose index is
a multiple of a step, and no more than twice `num_cloud` (at least 1/2) points. -/
theorem C61_cloud (c : Chain ℝ) (px py : String) (call : Call) (bar : Option String)
    (h : plotCloud c px py = .ok (call, bar)) :
    ∃ k x y xs ys col, 1 ≤ k ∧ call = .cloud c.name px py xs ys col ∧ c.samples.get px = .ok x ∧
      c.samples.get py = .ok y ∧ EveryKth k x xs ∧ EveryKth k y ys ∧ bar = c.cfg .colorParam ∧
      (c.cfg .colorParam = none → col = none) ∧
      (∀ p, c.cfg .colorParam = some p → ∃ d ds, c.samples.get p = .ok d ∧ col = some ds ∧ EveryKth k d ds) ∧
      ((1 / 2 : ℝ) ≤ c.cfg .numCloud → (xs.length : ℝ) ≤ 2 * (c.cfg .numCloud : ℝ)) ∧
      ((x.length : ℝ) ≤ (c.cfg .numCloud : ℝ) → xs = x) := by
  simp only [plotCloud, cloudStep, bind_ok_iff, pure_ok_iff, ensure_ok_iff, decide_eq_true_eq] at h
  obtain ⟨x, hx, y, hy, _, ⟨-, hn, rfl⟩, cd, hcd, he⟩ := h
  obtain ⟨rfl, rfl⟩ := Prod.mk.inj he
  clear he
  set k := max 1 ⌊(x.length : ℝ) / (c.cfg .numCloud : ℝ)⌋.toNat with hk
  have hk1 : 1 ≤ k := le_max_left _ _
  have hxs := everyNth_spec hk1 x
  refine ⟨k, x, y, _, _, _, hk1, rfl, hx, hy, hxs, everyNth_spec hk1 y, rfl, ?_, ?_, ?_, ?_⟩
  · intro hc
    rw [Chain.colorData, hc] at hcd
    cases hcd
    rfl
  · intro p hc
    rw [Chain.colorData, hc] at hcd
    obtain ⟨d, hd, hcd⟩ := bind_ok_iff.1 hcd
    cases hcd
    exact ⟨d, _, hd, rfl, everyNth_spec hk1 d⟩
  · intro hnc
    have hN : (0 : ℝ) < c.cfg .numCloud := by linarith
    by_contra hc
    push Not at hc
    set m := (everyNth k x).length with hm
    have hm0 : 0 < m := by
      have : (0 : ℝ) < m := lt_trans (by linarith) hc
      exact_mod_cast this
    have h1 : (m - 1) * k < x.length := (everyKth_length hxs).2 (m - 1) (by omega)
    have hfl : ⌊(x.length : ℝ) / (c.cfg .numCloud : ℝ)⌋ ≤ (k : ℤ) :=
      (Int.self_le_toNat _).trans (by exact_mod_cast le_max_right 1 _)
    have h2 : (x.length : ℝ) < (k + 1) * (c.cfg .numCloud : ℝ) := by
      rw [← div_lt_iff₀ hN]
      refine (Int.lt_floor_add_one _).trans_le ?_
      have : ((⌊(x.length : ℝ) / (c.cfg .numCloud : ℝ)⌋ : ℤ) : ℝ) ≤ k := by exact_mod_cast hfl
      linarith
    have h3 : (2 * x.length : ℝ) < (k + 1) * m := by
      have hk0 : (0 : ℝ) < k + 1 := by positivity
      nlinarith
    have h4 : 2 * x.length < (k + 1) * m := by exact_mod_cast h3
    obtain ⟨q, hq⟩ : ∃ q, m = q + 1 := ⟨m - 1, by omega⟩
    obtain ⟨j, hj⟩ : ∃ j, k = j + 1 := ⟨k - 1, by omega⟩
    rw [hq, hj] at h1 h4
    rw [Nat.add_sub_cancel] at h1
    rcases Nat.eq_zero_or_pos q with h0 | h0
    · rw [hq, h0] at hc
      push_cast at hc
      linarith
    · obtain ⟨q', rfl⟩ : ∃ q', q = q' + 1 := ⟨q - 1, by omega⟩
      nlinarith [Nat.zero_le (q' * j)]
  · intro hle
    have hN : (0 : ℝ) < c.cfg .numCloud := lt_of_le_of_ne (le_trans (Nat.cast_nonneg _) hle) (Ne.symm hn)
    have hfl : ⌊(x.length : ℝ) / (c.cfg .numCloud : ℝ)⌋ ≤ 1 := by
      rw [Int.floor_le_iff, div_lt_iff₀ hN]
      push_cast
      linarith
    have hk' : k = 1 := by omega
    refine List.ext_getElem? fun i => ?_
    rw [hxs i, hk', Nat.mul_one]

/-- Every third of seven entries. -/
example : EveryKth 3 [10, 11, 12, 13, 14, 15, 16] [10, 13, 16] := by
  have := everyNth_spec (k := 3) (by decide) [10, 11, 12, 13, 14, 15, 16]
  simpa [everyNth] using this

/-- A walk of two rows in a panel with a truth, blinded. -/
example : ∃ c : Chain ℝ, DemoChain c pairFrame "cloud" false cloudKw ∧
    walkPanel {} ⟨[c], ["a", "b"], [("a", some (0, 1)), ("b", some (0, 10))], ["b"], []⟩ [Truth.line [("b", 5)]] "b" =
      .ok [.lim .y 0 10, .lim .x 0 1, .axisLabel .y "b", .walk "cloud" [0, 10], .maxNLocator .y,
        .hline 5 (Truth.line [("b", 5)]).kwargs, .noTicks .y] ∧
    plotCloud c "a" "b" = .ok (.cloud "cloud" "a" "b" [0, 1] [0, 10] none, none) := by
  obtain ⟨c, hc⟩ := cloudPair_exists
  have ha : c.samples.get "a" = .ok [0, 1] := by rw [hc.samples]; rfl
  have hb : c.samples.get "b" = .ok [0, 10] := by rw [hc.samples]; rfl
  have hd : "b" ∈ c.dataColumns := by
    rw [Chain.dataColumns, hc.samples, hc.weight, hc.posterior]
    decide
  have hM : maxPoints = 100000 := by rw [maxPoints]
  have ht : thin [(0 : ℝ), 10] = [0, 10] := by
    rw [thin, if_neg (by rw [hM]; simp)]
  have hn : (c.cfg .numCloud : ℝ) = 10000 := by rw [hc.cfg]; rfl
  have hp : c.cfg .colorParam = none := by rw [hc.cfg]; rfl
  have hk : cloudStep 2 10000 = .ok 1 := by
    have : ⌊((2 : ℕ) : ℝ) / 10000⌋ = 0 := by
      rw [Int.floor_eq_zero_iff]
      constructor <;> norm_num
    simp only [cloudStep, this]
    simp [ensure, bind, Except.bind, pure, Except.pure]
  refine ⟨c, hc, ?_, ?_⟩
  · have hl : getLabel ({} : PlotConfig).labels "b" = "b" := rfl
    have hw : plotWalk "cloud" "b" [0, 10] (some (some (0, 10))) false =
        .ok [.lim .y 0 10, .lim .x 0 1, .axisLabel .y "b", .walk "cloud" [0, 10], .maxNLocator .y] := by
      norm_num [plotWalk, walkLim, setLim, ensure, bind, Except.bind, pure, Except.pure]
    have he : ([("a", some (0, 1)), ("b", some (0, 10))] : List (String × Option (ℝ × ℝ))).lookup "b" =
        some (some (0, 10)) := rfl
    have hlog : decide ("b" ∈ ([] : List String)) = false := rfl
    simp only [walkPanel, List.mapM_cons, List.mapM_nil, hd, if_true, hb, bind, Except.bind, pure, Except.pure, ht, hc.name,
      hl, he, hlog, hw]
    rfl
  · simp only [plotCloud, ha, hb, Chain.colorData, hp, hn, bind, Except.bind, List.length_cons, List.length_nil, hk, hc.name]
    simp [everyNth, pure, Except.pure]

end CC
