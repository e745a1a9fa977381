import Verif.Props.Isolation
import Verif.Props.Covariance
import Verif.Props.Shift
import Verif.Props.Invariance
import Verif.Lemmas.Demo

/-! # C69: parameters do not influence each other's summaries -/

namespace CC
open Spec

/-- Two tables of the same number of rows with the same values under each of the names. -/
def Spec.AgreeOn {K : Type} (names : List String) (f g : RawFrame K) : Prop :=
  g.index.length = f.index.length ∧ ∀ p ∈ names, g.cols.lookup (.str p) = f.cols.lookup (.str p)

section
variable {K : Type}

theorem lookup_toRaw (f : Frame K) (p : String) :
    f.toRaw.cols.lookup (.str p) = (f.cols.lookup p).map (List.map Flt.fin) := by
  simp only [Frame.toRaw]
  induction f.cols with
  | nil => rfl
  | cons e es ih =>
    obtain ⟨m, v⟩ := e
    simp only [List.map_cons, List.lookup_cons]
    by_cases h : p = m
    · subst h; simp
    · have h1 : (p == m) = false := by simpa using h
      have h2 : (ColLabel.str p == ColLabel.str m) = false := by simpa using h
      simp only [h1, h2]
      exact ih

theorem map_fin_injective : Function.Injective (List.map (Flt.fin (K := K))) :=
  List.map_injective_iff.2 fun a b h => by cases h; rfl

theorem get_eq_of_lookup {f g : Frame K} {p : String}
    (h : g.toRaw.cols.lookup (.str p) = f.toRaw.cols.lookup (.str p)) : g.get p = f.get p := by
  rw [lookup_toRaw, lookup_toRaw] at h
  have := Option.map_injective map_fin_injective h
  simp only [Frame.get, this]

variable [Field K] [LinearOrder K]

/-- The user's column in an accepted chain. -/
theorem make_lookup {a : Args K} {c : Chain K} (hshift : setting a .shiftParams = false) (h : Chain.make a = .ok c) :
    (∀ p, c.samples.toRaw.cols.lookup (.str p) = (a.samples.cols.lookup (.str p)).or
      (if p = a.weightColumn then some (List.replicate a.samples.index.length (.fin 1)) else none)) ∧
    c.samples.index = a.samples.index := by
  obtain ⟨col, raw, f0, f, h1, h2, h3, h4, h5, h6, h7, h8, h9, h10, rfl⟩ := Chain.make_ok_iff.1 h
  have hs : (((Cfg.default K).apply a.config).set ⟨.color, col⟩) .shiftParams = false := by
    rw [set_color_ne (by simp)]; exact hshift
  rw [hs, shiftIf, if_neg (by simp)] at h6
  cases h6
  have hraw := checkColumns_ok_iff.1 h5
  simp only [addWeights] at h4
  cases hl : a.samples.cols.lookup (.str a.weightColumn) with
  | none =>
    rw [hl] at h4
    simp only at h4
    split at h4
    · cases h4
      rw [← hraw]
      refine ⟨fun p => ?_, by rw [show f0.index = f0.toRaw.index from rfl, ← hraw]⟩
      simp only [List.lookup_append, List.lookup_cons, List.lookup_nil]
      congr 1
      by_cases hp : p = a.weightColumn
      · simp [hp]
      · have : (ColLabel.str p == ColLabel.str a.weightColumn) = false := by simpa using hp
        rw [this, if_neg hp]
    · cases h4
  | some w =>
    rw [hl] at h4
    simp only at h4
    split at h4
    · cases h4
      rw [← hraw]
      refine ⟨fun p => ?_, by rw [show f0.index = f0.toRaw.index from rfl, ← hraw]⟩
      by_cases hp : p = a.weightColumn
      · rw [hp, hl]; rfl
      · rw [if_neg hp, Option.or_none]
    · cases h4

theorem make_fields {a : Args K} {c : Chain K} (h : Chain.make a = .ok c) :
    c.name = a.name ∧ c.weightColumn = a.weightColumn ∧ c.grid = a.grid ∧ c.power = a.power ∧
    ∃ col, validateColor (((Cfg.default K).apply a.config) .color) = .ok col ∧
      c.cfg = resolveStatistics (((Cfg.default K).apply a.config).set ⟨.color, col⟩) := by
  obtain ⟨col, raw, f0, f, h1, h2, h3, h4, h5, h6, h7, h8, h9, h10, rfl⟩ := Chain.make_ok_iff.1 h
  exact ⟨rfl, rfl, rfl, rfl, col, h1, rfl⟩

end

/-- The number of bins depends on the number of columns only for very long chains. -/
theorem getBins_rows {c d : Chain ℝ} (hcfg : d.cfg = c.cfg) (hg : d.grid = c.grid)
    (hr : d.samples.index.length = c.samples.index.length)
    (hb : c.cfg .bins ≠ none ∨ c.samples.index.length < 36 ^ 4) : getBins d = getBins c := by
  have hs : d.smoothValue = c.smoothValue := by
    unfold Chain.smoothValue; rw [hcfg, hg]
  unfold getBins
  rw [hcfg, hs, hr]
  generalize hx : c.cfg .bins = x at hb
  cases x with
  | some b => rfl
  | none =>
    have hb := hb.resolve_left (fun h => h rfl)
    have key : ∀ k, (Nat.sqrt (Nat.sqrt (c.samples.index.length / k)) : Int) ≤ 35 := by
      intro k
      have h1 : c.samples.index.length / k < 36 ^ 4 := (Nat.div_le_self _ _).trans_lt hb
      have h2 : Nat.sqrt (c.samples.index.length / k) < 36 ^ 2 := by
        rw [Nat.sqrt_lt']; simpa [← pow_mul] using h1
      have h3 : Nat.sqrt (Nat.sqrt (c.samples.index.length / k)) < 36 := by
        rw [Nat.sqrt_lt']; exact h2
      omega
    have k1 := key c.samples.cols.length
    have k2 := key d.samples.cols.length
    simp only
    split <;> omega

theorem smoothedHistogram_column (kde : KdeFn) {c d : Chain ℝ} (hcfg : d.cfg = c.cfg) (hg : d.grid = c.grid)
    (hp : d.power = c.power) (hb : getBins d = getBins c) (hw : d.weights = c.weights) {p : String}
    (hd : d.samples.get p = c.samples.get p) (pad : Bool) (u : Option Bool) :
    smoothedHistogram kde d p pad u = smoothedHistogram kde c p pad u := by
  have hs : d.smoothValue = c.smoothValue := by
    unfold Chain.smoothValue; rw [hcfg, hg]
  have h1 : ∀ x w, marginalBins d x w pad = marginalBins c x w pad := by
    intro x w
    simp only [marginalBins, hg, hs, hb]
  have h2 : ∀ x w b h a z xs, marginalYs kde d u x w b h a z xs = marginalYs kde c u x w b h a z xs := by
    intro x w b h a z xs
    simp only [marginalYs, hs, hcfg]
  simp only [smoothedHistogram, hd, hw, h1, h2, hp]

theorem chainSummary_columns (kde : KdeFn) {c d : Chain ℝ} {cols : List String}
    (h : ∀ p ∈ cols, summaryEntry kde d p = summaryEntry kde c p)
    (hm : ∀ p ∈ cols, p ∈ d.samples.columns ↔ p ∈ c.samples.columns) (res : List (String × Summary ℝ)) :
    chainSummary kde d cols res = chainSummary kde c cols res := by
  induction cols generalizing res with
  | nil => rfl
  | cons p ps ih =>
    have ih := ih (fun q hq => h q (List.mem_cons_of_mem _ hq)) (fun q hq => hm q (List.mem_cons_of_mem _ hq))
    simp only [chainSummary, h p (by simp), ih, hm p (by simp)]

theorem getMany_congr {K : Type} {f g : Frame K} {cols : List String} (h : ∀ p ∈ cols, g.get p = f.get p) :
    g.getMany cols = f.getMany cols := by
  induction cols with
  | nil => rfl
  | cons p ps ih => simp only [Frame.getMany, h p (by simp), ih fun q hq => h q (List.mem_cons_of_mem _ hq)]

theorem mem_columns_iff_get {K : Type} {f : Frame K} {p : String} : p ∈ f.columns ↔ ∃ v, f.get p = .ok v := by
  simp only [Frame.columns, Frame.get]
  induction f.cols with
  | nil => simp
  | cons e es ih =>
    obtain ⟨m, v⟩ := e
    simp only [List.map_cons, List.mem_cons, List.lookup_cons]
    by_cases h : p = m
    · subst h; simp
    · have : (p == m) = false := by simpa using h
      simp only [h, this, false_or]
      exact ih

/-- **C69.** Two chains made with the same arguments from tables that agree on some columns and the weights: everything that
`get_summary` and `get_covariance` report for these columns is the same, whatever the other columns are and however the
columns are ordered (without `shift_params`; number of bins given or fewer than 36⁴ rows). -/
theorem C69_columns_partial (kde : KdeFn) (a b : Args ℝ) (c d : Chain ℝ) (cols : List String) (hab : b = { a with samples := b.samples })
    (hshift : setting a .shiftParams = false) (hc : Chain.make a = .ok c) (hd : Chain.make b = .ok d)
    (hagree : AgreeOn (a.weightColumn :: cols) a.samples b.samples)
    (hbins : setting a .bins ≠ none ∨ a.samples.index.length < 36 ^ 4) :
    (∀ h s h' s', getSummary kde h s (some [c]) (some cols) = getSummary kde h' s' (some [d]) (some cols)) ∧
    c.getCovariance (some cols) = d.getCovariance (some cols) ∧
    c.getCorrelation (some cols) = d.getCorrelation (some cols) := by
  have hcfg : b.config = a.config := by rw [hab]
  have hwc : b.weightColumn = a.weightColumn := by rw [hab]
  obtain ⟨c1, c2, c3, c4, col, c5, c6⟩ := make_fields hc
  obtain ⟨d1, d2, d3, d4, col', d5, d6⟩ := make_fields hd
  rw [hcfg] at d5 d6
  rw [c5] at d5
  cases d5
  have e1 : d.cfg = c.cfg := by rw [c6, d6]
  have e2 : d.grid = c.grid := by rw [c3, d3, hab]
  have e3 : d.power = c.power := by rw [c4, d4, hab]
  have e4 : d.name = c.name := by rw [c1, d1, hab]
  obtain ⟨hlc, hic⟩ := make_lookup hshift hc
  obtain ⟨hld, hid⟩ := make_lookup (a := b) (by unfold setting at hshift ⊢; rw [hcfg]; exact hshift) hd
  have hget : ∀ p ∈ a.weightColumn :: cols, d.samples.get p = c.samples.get p := by
    intro p hp
    refine get_eq_of_lookup ?_
    rw [hlc, hld, hagree.2 p hp, hwc, hagree.1]
  have hw : d.weights = c.weights := by
    unfold Chain.weights
    rw [c2, d2, hwc]
    exact hget _ (by simp)
  have hgetc : ∀ p ∈ cols, d.samples.get p = c.samples.get p := fun p hp => hget p (List.mem_cons_of_mem _ hp)
  have hb : getBins d = getBins c := by
    refine getBins_rows e1 e2 (by rw [hic, hid, hagree.1]) ?_
    rw [hic, c6, resolveStatistics_ne (by simp), set_color_ne (by simp)]
    exact hbins
  have hent : ∀ p ∈ cols, summaryEntry kde d p = summaryEntry kde c p := fun p hp =>
    summaryEntry_same kde c d p e1 fun pad => smoothedHistogram_column kde e1 e2 e3 hb hw (hgetc p hp) pad none
  have hmem : ∀ p ∈ cols, p ∈ d.samples.columns ↔ p ∈ c.samples.columns := by
    intro p hp
    rw [mem_columns_iff_get, mem_columns_iff_get, hgetc p hp]
  have hcov : c.getCovariance (some cols) = d.getCovariance (some cols) := by
    simp only [Chain.getCovariance, Option.getD_some, getMany_congr hgetc, hw]
  refine ⟨fun h s h' s' => ?_, hcov, ?_⟩
  · change summaryLoop kde cols [c] [] = summaryLoop kde cols [d] []
    simp only [summaryLoop, chainSummary_columns kde hent hmem, e4]
  · simp only [Chain.getCorrelation, hcov]

/-- A table of one parameter, with the weights behind it or in front. -/
def orderWitness (front : Bool) : Args ℚ where
  samples := ⟨[.int 0, .int 1], if front then [(.str "weight", [.fin 1, .fin 1]), (.str "a", [.fin 1, .fin 3])]
    else [(.str "a", [.fin 1, .fin 3]), (.str "weight", [.fin 1, .fin 1])]⟩
  name := "order"
  config := [⟨.shiftParams, true⟩]

/-- With `shift_params` the order of the columns decides whether a chain is accepted at all. -/
theorem C69_violated : AgreeOn ["weight", "a"] (orderWitness false).samples (orderWitness true).samples ∧
    (∃ c, Chain.make (orderWitness false) = .ok c ∧ c.samples.get "a" = .ok [-1, 1]) ∧
    ¬ ∃ c, Chain.make (orderWitness true) = .ok c := by
  refine ⟨⟨rfl, by decide +kernel⟩, ?_, ?_⟩
  · exact ⟨_, Chain.make_ok_iff.2 ⟨none, (orderWitness false).samples,
      { index := [.int 0, .int 1], cols := [("a", [1, 3]), ("weight", [1, 1])] },
      { index := [.int 0, .int 1], cols := [("a", [-1, 1]), ("weight", [0, 0])] },
      by decide +kernel, by decide +kernel, rfl, by decide +kernel, by decide +kernel,
      by decide +kernel, by decide +kernel, by decide +kernel, by decide +kernel, by decide +kernel, rfl⟩, rfl⟩
  · rintro ⟨c, hc⟩
    obtain ⟨col, raw, f0, f, h1, h2, h3, h4, h5, h6, h7, h8, h9, h10, rfl⟩ := Chain.make_ok_iff.1 hc
    have e4 : addWeights (orderWitness true).samples (orderWitness true).weightColumn = .ok (orderWitness true).samples := by
      decide +kernel
    rw [e4] at h4
    cases h4
    have e5 : checkColumns (orderWitness true).samples =
        .ok { index := [.int 0, .int 1], cols := [("weight", [1, 1]), ("a", [1, 3])] } := by decide +kernel
    rw [e5] at h5
    cases h5
    rw [set_color_ne (by simp)] at h6
    have e6 : shiftIf ((Cfg.default ℚ).apply (orderWitness true).config .shiftParams) (orderWitness true).weightColumn
        ({ index := [.int 0, .int 1], cols := [("weight", [1, 1]), ("a", [1, 3])] } : Frame ℚ) = .error .zeroDivision := by
      decide +kernel
    rw [e6] at h6
    cases h6

/-- A table of "a" alone, and one with "b" in front. -/
def columnsDemo (both : Bool) : Frame ℝ where
  index := [.int 0, .int 1]
  cols := if both then [("b", [5, 6]), ("a", [1, 3]), ("weight", [1, 2])] else [("a", [1, 3]), ("weight", [1, 2])]

/-- Adding a column "b" in front changes nothing that is reported for "a". -/
example (kde : KdeFn) (h : Heap ℝ) (s : Consumer ℝ) : ∃ c d,
    Chain.make { samples := (columnsDemo false).toRaw, name := "c" } = .ok c ∧
    Chain.make { samples := (columnsDemo true).toRaw, name := "c" } = .ok d ∧
    c.samples.columns = ["a", "weight"] ∧ d.samples.columns = ["b", "a", "weight"] ∧
    getSummary kde h s (some [c]) (some ["a"]) = getSummary kde h s (some [d]) (some ["a"]) := by
  have hw : ∀ x ∈ ([1, 2] : List ℝ), 0 < x := by simp
  obtain ⟨c, hc, h1, -⟩ := plain_chain (columnsDemo false) ⟨by decide, by simp [columnsDemo]⟩ (by simp [columnsDemo])
    (w := [1, 2]) rfl hw "c"
  obtain ⟨d, hd, h2, -⟩ := plain_chain (columnsDemo true) ⟨by decide, by simp [columnsDemo]⟩ (by simp [columnsDemo])
    (w := [1, 2]) rfl hw "c"
  refine ⟨c, d, hc, hd, by rw [h1]; rfl, by rw [h2]; rfl, ?_⟩
  refine (C69_columns_partial kde _ _ c d ["a"] ?_ rfl hc hd ⟨rfl, ?_⟩ (Or.inr (by simp [columnsDemo, Frame.toRaw]))).1 h s h s
  · rfl
  · intro p hp
    simp only [List.mem_cons, List.not_mem_nil, or_false] at hp
    rcases hp with rfl | rfl <;> rfl

end CC
