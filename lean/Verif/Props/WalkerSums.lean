import Verif.Props.Divide
import Verif.Props.Comparison
import Verif.Props.MaxPosterior
import Verif.Props.Diagnostic
import Mathlib.Tactic.LinearCombination

/-! # C134: the walkers of a divided chain add up to the chain -/

set_option linter.unusedSectionVars false

namespace CC
open Spec

namespace Spec
variable {K : Type} [Field K]

/-- The weighted mean of a column. -/
def colMean (w x : List K) : K := ((w.zip x).map fun e => e.1 * e.2).sum / w.sum

/-- The normalisation of weighted covariances, `Σw - Σw²/Σw` (the number of samples less one for unit weights). -/
def freedom (w : List K) : K := w.sum - (w.map (· ^ 2)).sum / w.sum

variable [LinearOrder K]

/-- `get_covariance` reports the covariance `v` for two columns of a chain. -/
def ReportsCov (c : Chain K) (p q : String) (v : K) : Prop :=
  ∃ a b, c.getCovariance (some [p, q]) = .ok ⟨[p, q], .matrix [[.fin a, .fin v], [.fin v, .fin b]]⟩

/-- What is known of one walker: the columns of weights and of two parameters, and the covariance reported. -/
structure WalkerData (K : Type) where
  weights : List K
  x : List K
  y : List K
  cov : K

/-- The data `t` are those of the chain `d`. -/
def DataOf (p q : String) (d : Chain K) (t : WalkerData K) : Prop :=
  d.weights = .ok t.weights ∧ d.samples.get p = .ok t.x ∧ d.samples.get q = .ok t.y ∧ ReportsCov d p q t.cov

end Spec

section
variable {K : Type} [Field K] [LinearOrder K] [IsStrictOrderedRing K]

theorem part_mem_right {α β : Type} {R : α → β → Prop} {l : List α} {l' : List β} (h : List.Forall₂ R l l') {b : β}
    (hb : b ∈ l') : ∃ a ∈ l, R a b := by
  induction h with
  | nil => simp at hb
  | cons hr _ ih =>
    rcases List.mem_cons.1 hb with rfl | hb
    · exact ⟨_, List.mem_cons_self, hr⟩
    · obtain ⟨a, ha, hab⟩ := ih hb
      exact ⟨a, List.mem_cons_of_mem _ ha, hab⟩

theorem part_exists {α β : Type} {R : α → β → Prop} {l : List α} (h : ∀ a ∈ l, ∃ b, R a b) : ∃ l', List.Forall₂ R l l' := by
  induction l with
  | nil => exact ⟨[], .nil⟩
  | cons a l ih =>
    obtain ⟨b, hb⟩ := h a List.mem_cons_self
    obtain ⟨l', hl'⟩ := ih fun x hx => h x (List.mem_cons_of_mem _ hx)
    exact ⟨b :: l', .cons hb hl'⟩

theorem part_unique {α β γ : Type} {F : α → Res γ} {g : β → γ} {l : List α} {ys : List γ} {ts : List β}
    (h : List.Forall₂ (fun a y => F a = .ok y) l ys) (ht : List.Forall₂ (fun a t => F a = .ok (g t)) l ts) : ts.map g = ys := by
  induction h generalizing ts with
  | nil => cases ht; rfl
  | cons h _ ih =>
    cases ht with
    | cons ht hts =>
      rw [List.map_cons, ih hts]
      cases h.symm.trans ht
      rfl

/-- The chains that `divide` returns are accepted chains, and walkers of the chain. -/
theorem divide_each {a : Args K} {c : Chain K} (hwf : a.samples.WF) (hshift : setting a .shiftParams = false)
    (h : Chain.make a = .ok c) {cs : List (Chain K)} (hcs : c.divide = .ok cs) :
    ∀ d ∈ cs, AcceptedNoShift d ∧ (∃ i, WalkerOf c d i) ∧ d.samples.columns = c.samples.columns ∧
      d.samples.index.length * c.walkers = c.samples.index.length := by
  obtain ⟨w1, w2, w3, w4, w5, w6⟩ := make_WF hwf h
  obtain ⟨-, -, -, hf⟩ := divide_ok_iff.1 hcs
  generalize hn : c.samples.index.length / c.walkers = n at hf
  have hlen : c.walkers * n = c.samples.index.length := by
    rw [← hn]; exact Nat.mul_div_cancel' w6
  intro d hd
  obtain ⟨i, hi, hmk⟩ := part_mem_right hf hd
  have hi' := List.mem_range.1 hi
  obtain ⟨b1, b2⟩ := block_make hwf hshift h hmk
  refine ⟨⟨_, toRaw_WF.2 (rows_WF w1 (i * n) n), ?_, hmk⟩, ⟨i, b2⟩, by rw [b1, rows_columns], ?_⟩
  · rw [walker_setting]; simpa using (accepted_settings hwf hshift h).1
  · rw [b1]
    change ((c.samples.index.drop (i * n)).take n).length * _ = _
    have h1 : i * n + n ≤ c.walkers * n := by
      have := Nat.mul_le_mul_right n (Nat.succ_le_of_lt hi')
      rwa [Nat.succ_mul] at this
    rw [List.length_take, List.length_drop, ← hlen, Nat.mul_comm]
    congr 1
    omega

/-- A column of the chain is that of the walkers, one after the other. -/
theorem divide_column {a : Args K} {c : Chain K} (hwf : a.samples.WF) (hshift : setting a .shiftParams = false)
    (h : Chain.make a = .ok c) {cs : List (Chain K)} (hcs : c.divide = .ok cs) {p : String} {x : List K}
    (hx : c.samples.get p = .ok x) : ∃ xs, List.Forall₂ (fun d y => d.samples.get p = .ok y) cs xs ∧ xs.flatten = x := by
  obtain ⟨h1, h2, -, -⟩ := divide_ok_iff.1 hcs
  obtain ⟨cs', hcs', -, -, -, hall⟩ := C10_divide_lossless a c hwf hshift h h1 h2
  cases hcs.symm.trans hcs'
  obtain ⟨xs, hxs, hfl⟩ := hall p x hx
  exact ⟨xs, mapM_ok_iff.1 hxs, hfl⟩

theorem sum_centred (l : List (K × K × K)) (m n : K) :
    (l.map fun e => e.1 * (e.2.1 - m) * (e.2.2 - n)).sum =
      (l.map fun e => e.1 * e.2.1 * e.2.2).sum - n * (l.map fun e => e.1 * e.2.1).sum - m * (l.map fun e => e.1 * e.2.2).sum
        + m * n * (l.map fun e => e.1).sum := by
  induction l with
  | nil => simp
  | cons e l ih => simp only [List.map_cons, List.sum_cons, ih]; ring

/-- The sums of products that make up covariances. -/
theorem zip_sums {w x y : List K} (hx : x.length = w.length) (hy : y.length = w.length) :
    ((w.zip (x.zip y)).map fun e => e.1) = w ∧
    ((w.zip (x.zip y)).map fun e => e.1 * e.2.1) = ((w.zip x).map fun e => e.1 * e.2) ∧
    ((w.zip (x.zip y)).map fun e => e.1 * e.2.2) = ((w.zip y).map fun e => e.1 * e.2) := by
  refine ⟨?_, ?_, ?_⟩ <;> apply List.ext_getElem <;> simp [hx, hy]

theorem reports_cov {d : Chain K} (hd : AcceptedNoShift d) (hrows : 2 ≤ d.samples.index.length) {p q : String}
    (hp : p ∈ d.samples.columns) (hq : q ∈ d.samples.columns) :
    ∃ t : WalkerData K, DataOf p q d t ∧ (∀ v ∈ t.weights, 0 < v) ∧ t.weights.length = d.samples.index.length ∧
      t.x.length = t.weights.length ∧ t.y.length = t.weights.length ∧ 0 < t.weights.sum ∧
      freedom t.weights * t.cov = ((t.weights.zip (t.x.zip t.y)).map fun e => e.1 * e.2.1 * e.2.2).sum -
        ((t.weights.zip t.x).map fun e => e.1 * e.2).sum * ((t.weights.zip t.y).map fun e => e.1 * e.2).sum / t.weights.sum := by
  obtain ⟨a, hwf, hshift, h⟩ := hd
  have hcols : ∀ r ∈ [p, q], r ∈ d.samples.columns := by simp [hp, hq]
  obtain ⟨w, x, hw, hpos, hx⟩ := accepted_columns hwf hshift h [p, q] hcols
  have hcov := getCovariance_eq hw hpos hx hrows (by simp)
  have hW : 0 < ∑ i, w i := Finset.sum_pos (fun i _ => hpos i) ⟨⟨0, by omega⟩, Finset.mem_univ _⟩
  have hF : (∑ i, w i) - (∑ i, w i ^ 2) / ∑ i, w i ≠ 0 := (fact_pos hpos hrows).ne'
  refine ⟨⟨List.ofFn w, List.ofFn (x 0), List.ofFn (x 1), wcov w (x 0) (x 1)⟩, ⟨hw, hx 0, hx 1, wcov w (x 0) (x 0), wcov w (x 1) (x 1), ?_⟩,
    ?_, by simp, by simp, by simp, by simpa [List.sum_ofFn] using hW, ?_⟩
  · rw [hcov]
    simp [List.ofFn_succ, wcov_comm w (x 1) (x 0)]
  · intro v hv
    obtain ⟨i, rfl⟩ := (List.mem_ofFn' _ _).1 hv
    exact hpos i
  · dsimp only
    have hz := sum_centred ((List.ofFn w).zip ((List.ofFn (x 0)).zip (List.ofFn (x 1)))) (wmean w (x 0)) (wmean w (x 1))
    obtain ⟨z1, z2, z3⟩ := zip_sums (w := List.ofFn w) (x := List.ofFn (x 0)) (y := List.ofFn (x 1)) (by simp) (by simp)
    have e1 : freedom (List.ofFn w) = (∑ i, w i) - (∑ i, w i ^ 2) / ∑ i, w i := by
      simp [freedom, List.map_ofFn, List.sum_ofFn, Function.comp_def]
    have e2 : ((List.ofFn w).zip (List.ofFn (x 0))).map (fun e => e.1 * e.2) = List.ofFn fun i => w i * x 0 i := by
      apply List.ext_getElem <;> simp
    have e3 : ((List.ofFn w).zip (List.ofFn (x 1))).map (fun e => e.1 * e.2) = List.ofFn fun i => w i * x 1 i := by
      apply List.ext_getElem <;> simp
    have e4 : ((List.ofFn w).zip ((List.ofFn (x 0)).zip (List.ofFn (x 1)))).map
        (fun e => e.1 * (e.2.1 - wmean w (x 0)) * (e.2.2 - wmean w (x 1))) =
        List.ofFn fun i => w i * (x 0 i - wmean w (x 0)) * (x 1 i - wmean w (x 1)) := by
      apply List.ext_getElem <;> simp
    rw [z1, z2, z3, e4, e2, e3] at hz
    simp only [List.sum_ofFn] at hz
    rw [e1, e2, e3, wcov, mul_div_cancel₀ _ hF, hz]
    simp only [List.sum_ofFn, wmean]
    field_simp
    ring

theorem flatten_zip {ts : List (WalkerData K)} (hl : ∀ t ∈ ts, t.x.length = t.weights.length ∧ t.y.length = t.weights.length) :
    (ts.map (·.weights)).flatten.zip ((ts.map (·.x)).flatten.zip (ts.map (·.y)).flatten) =
      (ts.map fun t => t.weights.zip (t.x.zip t.y)).flatten ∧
    (ts.map (·.x)).flatten.length = (ts.map (·.weights)).flatten.length ∧
    (ts.map (·.y)).flatten.length = (ts.map (·.weights)).flatten.length := by
  induction ts with
  | nil => simp
  | cons t ts ih =>
    obtain ⟨i1, i2, i3⟩ := ih fun x hx => hl x (List.mem_cons_of_mem _ hx)
    obtain ⟨h1, h2⟩ := hl t List.mem_cons_self
    simp only [List.map_cons, List.flatten_cons]
    rw [List.zip_append (by omega), List.zip_append (by simp [h1, h2]), i1]
    refine ⟨rfl, ?_, ?_⟩ <;> simp only [List.length_append] <;> omega

theorem sum_parts {ι : Type} (ls : List ι) (l : ι → List (K × K × K)) (f : K × K × K → K) :
    (((ls.map l).flatten).map f).sum = (ls.map fun t => ((l t).map f).sum).sum := by
  induction ls with
  | nil => simp
  | cons t ls ih => simp only [List.map_cons, List.flatten_cons, List.map_append, List.sum_append, List.sum_cons, ih]

/-- The identity behind the decomposition of covariances. -/
theorem sum_within_between {ι : Type} (ts : List ι) (S A B W : ι → K) (m n : K) (hW : ∀ t ∈ ts, W t ≠ 0) :
    (ts.map fun t => (S t - A t * B t / W t) + W t * (A t / W t - m) * (B t / W t - n)).sum =
      (ts.map S).sum - n * (ts.map A).sum - m * (ts.map B).sum + m * n * (ts.map W).sum := by
  induction ts with
  | nil => simp
  | cons t ts ih =>
    have h0 := hW t List.mem_cons_self
    simp only [List.map_cons, List.sum_cons, ih fun x hx => hW x (List.mem_cons_of_mem _ hx)]
    field_simp
    ring

/-- **C134** (means and covariances). If every walker has at least two samples, the mean of a column is the mean of the means of the
walkers, weighted by their total weights, and the covariance reported for two columns is made up of the covariances reported for
the walkers and of the scatter of their means. -/
theorem C134_covariance (a : Args K) (c : Chain K) (hwf : a.samples.WF) (hshift : setting a .shiftParams = false)
    (h : Chain.make a = .ok c) (hw : 1 < c.walkers) (hg : c.grid = false) (hrows : 2 * c.walkers ≤ c.samples.index.length)
    {p q : String} (hp : p ∈ c.samples.columns) (hq : q ∈ c.samples.columns) :
    ∃ (cs : List (Chain K)) (T : WalkerData K) (ts : List (WalkerData K)), c.divide = .ok cs ∧ DataOf p q c T ∧
      List.Forall₂ (DataOf p q) cs ts ∧ T.weights.sum = (ts.map fun t => t.weights.sum).sum ∧
      T.weights.sum * colMean T.weights T.x = (ts.map fun t => t.weights.sum * colMean t.weights t.x).sum ∧
      freedom T.weights * T.cov = (ts.map fun t => freedom t.weights * t.cov +
        t.weights.sum * (colMean t.weights t.x - colMean T.weights T.x) * (colMean t.weights t.y - colMean T.weights T.y)).sum := by
  obtain ⟨cs, hcs⟩ := C11_divide_succeeds_partial a c hwf hshift h hw hg
  have hall := divide_each hwf hshift h hcs
  obtain ⟨T, hT, T1, T2, T3, T4, T5, T6⟩ := reports_cov ⟨a, hwf, hshift, h⟩ (by omega) hp hq
  obtain ⟨ts, hts⟩ := part_exists (l := cs) (R := fun d (t : WalkerData K) => DataOf p q d t ∧ d.weightColumn = c.weightColumn ∧
      t.weights.length = d.samples.index.length ∧
      t.x.length = t.weights.length ∧ t.y.length = t.weights.length ∧ 0 < t.weights.sum ∧
      freedom t.weights * t.cov = ((t.weights.zip (t.x.zip t.y)).map fun e => e.1 * e.2.1 * e.2.2).sum -
        ((t.weights.zip t.x).map fun e => e.1 * e.2).sum * ((t.weights.zip t.y).map fun e => e.1 * e.2).sum / t.weights.sum) (by
    intro d hd
    obtain ⟨d1, ⟨i, d2⟩, d3, d4⟩ := hall d hd
    obtain ⟨t, t1, -, t3⟩ := reports_cov d1 (by
      by_contra hlt
      have : d.samples.index.length * c.walkers ≤ 1 * c.walkers := Nat.mul_le_mul_right _ (by omega)
      omega) (p := p) (q := q) (by rw [d3]; exact hp) (by rw [d3]; exact hq)
    exact ⟨t, t1, d2.weightColumn, t3⟩)
  have hcol : ∀ {r : String} {x : List K} (g : WalkerData K → List K), c.samples.get r = .ok x →
      List.Forall₂ (fun (d : Chain K) t => d.samples.get r = .ok (g t)) cs ts → (ts.map g).flatten = x := by
    intro r x g hx hf
    obtain ⟨xs, h1, h2⟩ := divide_column hwf hshift h hcs hx
    rw [part_unique h1 hf, h2]
  have hwts : (ts.map (·.weights)).flatten = T.weights := by
    refine hcol _ hT.1 (hts.imp fun d t h => ?_)
    have := h.2.1
    rw [← this]; exact h.1.1
  have hx : (ts.map (·.x)).flatten = T.x := hcol _ hT.2.1 (hts.imp fun _ _ h => h.1.2.1)
  have hy : (ts.map (·.y)).flatten = T.y := hcol _ hT.2.2.1 (hts.imp fun _ _ h => h.1.2.2.1)
  have hmem : ∀ t ∈ ts, t.x.length = t.weights.length ∧ t.y.length = t.weights.length ∧ 0 < t.weights.sum ∧
      freedom t.weights * t.cov = ((t.weights.zip (t.x.zip t.y)).map fun e => e.1 * e.2.1 * e.2.2).sum -
        ((t.weights.zip t.x).map fun e => e.1 * e.2).sum * ((t.weights.zip t.y).map fun e => e.1 * e.2).sum / t.weights.sum := by
    intro t ht
    obtain ⟨d, -, h1⟩ := part_mem_right hts ht
    exact ⟨h1.2.2.2.1, h1.2.2.2.2.1, h1.2.2.2.2.2.1, h1.2.2.2.2.2.2⟩
  obtain ⟨hz, -, -⟩ := flatten_zip fun t ht => ⟨(hmem t ht).1, (hmem t ht).2.1⟩
  rw [hwts, hx, hy] at hz
  obtain ⟨z1, z2, z3⟩ := zip_sums T3 T4
  have hW : T.weights.sum = (ts.map fun t => t.weights.sum).sum := by
    conv_lhs => rw [← hwts]
    rw [List.sum_flatten, List.map_map]
    rfl
  have hA : ((T.weights.zip T.x).map fun e => e.1 * e.2).sum = (ts.map fun t => ((t.weights.zip t.x).map fun e => e.1 * e.2).sum).sum := by
    rw [← z2, hz, sum_parts]
    congr 1
    refine List.map_congr_left fun t ht => ?_
    rw [(zip_sums (hmem t ht).1 (hmem t ht).2.1).2.1]
  have hB : ((T.weights.zip T.y).map fun e => e.1 * e.2).sum = (ts.map fun t => ((t.weights.zip t.y).map fun e => e.1 * e.2).sum).sum := by
    rw [← z3, hz, sum_parts]
    congr 1
    refine List.map_congr_left fun t ht => ?_
    rw [(zip_sums (hmem t ht).1 (hmem t ht).2.1).2.2]
  refine ⟨cs, T, ts, hcs, hT, hts.imp fun _ _ h => h.1, hW, ?_, ?_⟩
  · rw [colMean, mul_div_cancel₀ _ T5.ne', hA]
    congr 1
    refine List.map_congr_left fun t ht => ?_
    rw [colMean, mul_div_cancel₀ _ (hmem t ht).2.2.1.ne']
  · rw [T6]
    have := sum_within_between ts (fun t => ((t.weights.zip (t.x.zip t.y)).map fun e => e.1 * e.2.1 * e.2.2).sum)
      (fun t => ((t.weights.zip t.x).map fun e => e.1 * e.2).sum) (fun t => ((t.weights.zip t.y).map fun e => e.1 * e.2).sum)
      (fun t => t.weights.sum) (colMean T.weights T.x) (colMean T.weights T.y) fun t ht => (hmem t ht).2.2.1.ne'
    rw [← hA, ← hB, ← hW, ← sum_parts ts (fun t => t.weights.zip (t.x.zip t.y)) (fun e => e.1 * e.2.1 * e.2.2), ← hz] at this
    have hc : (ts.map fun t => freedom t.weights * t.cov +
        t.weights.sum * (colMean t.weights t.x - colMean T.weights T.x) * (colMean t.weights t.y - colMean T.weights T.y)) =
      ts.map (fun t => (((t.weights.zip (t.x.zip t.y)).map fun e => e.1 * e.2.1 * e.2.2).sum -
        ((t.weights.zip t.x).map fun e => e.1 * e.2).sum * ((t.weights.zip t.y).map fun e => e.1 * e.2).sum / t.weights.sum) +
        t.weights.sum * (((t.weights.zip t.x).map fun e => e.1 * e.2).sum / t.weights.sum - colMean T.weights T.x) *
          (((t.weights.zip t.y).map fun e => e.1 * e.2).sum / t.weights.sum - colMean T.weights T.y)) :=
      List.map_congr_left (fun t ht => by rw [(hmem t ht).2.2.2]; rfl)
    rw [hc, this]
    have h0 := T5.ne'
    unfold colMean
    field_simp
    ring

/-! ## Criteria -/

/-- The greatest posterior of the chain is that of the best walker. -/
theorem divide_max {a : Args K} {c : Chain K} (hwf : a.samples.WF) (hshift : setting a .shiftParams = false)
    (h : Chain.make a = .ok c) {cs : List (Chain K)} (hcs : c.divide = .ok cs) (hp : c.posteriorColumn ∈ c.samples.columns) :
    (∀ M, MaxLogPosterior c M → ∀ d ∈ cs, ∀ M', MaxLogPosterior d M' → M' ≤ M) ∧
    ∃ d ∈ cs, ∀ M M', MaxLogPosterior c M → MaxLogPosterior d M' → M = M' := by
  have hall := divide_each hwf hshift h hcs
  obtain ⟨w1, -, w3, -, -, -⟩ := make_WF hwf h
  obtain ⟨x, hx⟩ := get_ok_of_mem hp
  obtain ⟨xs, hxs, rfl⟩ := divide_column hwf hshift h hcs hx
  have hmem : ∀ d ∈ cs, ∃ y ∈ xs, d.samples.get c.posteriorColumn = .ok y := by
    intro d hd
    obtain ⟨y, hy, hyd⟩ := part_mem_right (List.Forall₂.flip hxs) hd
    exact ⟨y, hy, hyd⟩
  have hget : ∀ {d : Chain K} {y : List K}, d.samples.WF → (d.posteriorColumn, y) ∈ d.samples.cols →
      d.samples.get d.posteriorColumn = .ok y := fun hd hy => get_of_mem hd.1 hy
  have hc : ∀ M, MaxLogPosterior c M → M ∈ xs.flatten ∧ ∀ y ∈ xs.flatten, y ≤ M := by
    rintro M ⟨y, h1, h2, h3⟩
    cases hx.symm.trans (hget w1 h1)
    exact ⟨h2, h3⟩
  have hd : ∀ d ∈ cs, ∀ M', MaxLogPosterior d M' → ∀ y, d.samples.get c.posteriorColumn = .ok y → M' ∈ y ∧ ∀ z ∈ y, z ≤ M' := by
    rintro d hdm M' ⟨y, h1, h2, h3⟩ y' hy'
    obtain ⟨⟨b, b1, -, b3⟩, ⟨i, b4⟩, -, -⟩ := hall d hdm
    have := hget (make_WF b1 b3).1 h1
    rw [b4.posteriorColumn] at this
    cases this.symm.trans hy'
    exact ⟨h2, h3⟩
  refine ⟨?_, ?_⟩
  · intro M hM d hdm M' hM'
    obtain ⟨y, hy, hyd⟩ := hmem d hdm
    exact (hc M hM).2 _ (List.mem_flatten.2 ⟨y, hy, (hd d hdm M' hM' y hyd).1⟩)
  · by_cases hex : ∃ M, MaxLogPosterior c M
    · obtain ⟨M, hM⟩ := hex
      obtain ⟨y, hy, hMy⟩ := List.mem_flatten.1 (hc M hM).1
      obtain ⟨d, hdm, hyd⟩ := part_mem_right hxs hy
      refine ⟨d, hdm, fun M₁ M' h1 h2 => ?_⟩
      have e : M₁ = M := le_antisymm ((hc M hM).2 _ (hc M₁ h1).1) ((hc M₁ h1).2 _ (hc M hM).1)
      subst e
      obtain ⟨g1, g2⟩ := hd d hdm M' h2 y hyd
      exact le_antisymm (g2 _ hMy) ((hc M₁ hM).2 _ (List.mem_flatten.2 ⟨y, hy, g1⟩))
    · obtain ⟨d, hdm⟩ : ∃ d, d ∈ cs := by
        obtain ⟨h1, -, -, hf⟩ := divide_ok_iff.1 hcs
        have := hf.length_eq
        rw [List.length_range] at this
        exact List.exists_mem_of_length_pos (by omega)
      exact ⟨d, hdm, fun M M' hM _ => absurd ⟨M, hM⟩ hex⟩

/-- A criterion that is best for the whole chain, and as good for one of the walkers. -/
theorem relative_whole {crit : Chain K → K → Prop} {c : Chain K} {cs : List (Chain K)} {r : List (String × Flt K)}
    (he : eligible c = true) (hes : ∀ d ∈ cs, eligible d = true)
    (hle : ∀ d ∈ cs, ∀ v v', crit c v → crit d v' → v ≤ v') (heq : ∃ d ∈ cs, ∀ v v', crit c v → crit d v' → v = v')
    (hr : RelativeCriterion eligible crit ((c.name, c) :: cs.map fun d => (d.name, d)) r) :
    ∃ rs, r = (c.name, .fin 0) :: rs ∧ List.Forall₂ (fun d e => e.1 = d.name ∧ ∃ v, 0 ≤ v ∧ e.2 = .fin v) cs rs ∧
      ∃ e ∈ rs, e.2 = .fin 0 := by
  obtain ⟨vals, rfl, h0, h1, b, hf⟩ := hr
  rw [List.filter_eq_self.2 (by
    intro e hem
    rcases List.mem_cons.1 hem with rfl | hem
    · exact he
    · obtain ⟨d, hd, rfl⟩ := List.mem_map.1 hem
      exact hes d hd)] at hf
  cases hf with
  | @cons _ v _ vs hv hvs =>
    rw [List.forall₂_map_left_iff] at hvs
    have hge : ∀ u ∈ vs, v.2 ≤ u.2 := by
      intro u hu
      obtain ⟨d, hd, hdu⟩ := part_mem_right hvs hu
      have := hle d hd _ _ hv.2 hdu.2
      linarith
    have hv0 : v.2 = 0 := by
      obtain ⟨e, hem, hee⟩ := h1 (by simp)
      rcases List.mem_cons.1 hem with rfl | hem
      · exact hee
      · have := hge e hem
        have := h0 v (by simp)
        linarith
    obtain ⟨d, hd, hdeq⟩ := heq
    obtain ⟨u, hu, hdu⟩ := part_mem_right hvs.flip hd
    have hu0 : u.2 = 0 := by
      have := hdeq _ _ hv.2 hdu.2
      linarith
    refine ⟨vs.map fun e => (e.1, .fin e.2), ?_, ?_, (u.1, .fin u.2), List.mem_map.2 ⟨u, hu, rfl⟩, by rw [hu0]⟩
    · rw [List.map_cons, hv0, hv.1]
    · rw [List.forall₂_map_right_iff]
      have : ∀ u ∈ vs, 0 ≤ u.2 := fun u hu => h0 u (List.mem_cons_of_mem _ hu)
      clear hge hu hdu h0 h1 hes hle hd
      induction hvs with
      | nil => exact .nil
      | cons g1 _ ih =>
        exact .cons ⟨g1.1, _, this _ List.mem_cons_self, rfl⟩ (ih fun u hu => this u (List.mem_cons_of_mem _ hu))

theorem divide_eligible {a : Args K} {c : Chain K} (hwf : a.samples.WF) (hshift : setting a .shiftParams = false)
    (h : Chain.make a = .ok c) {cs : List (Chain K)} (hcs : c.divide = .ok cs) (he : eligible c = true) :
    ∀ d ∈ cs, eligible d = true := by
  intro d hd
  obtain ⟨-, ⟨i, b⟩, b3, -⟩ := divide_each hwf hshift h hcs d hd
  rw [eligible, b.posteriorColumn, b3, b.numEffDataPoints, b.numFreeParams]
  exact he

/-- **C134** (AIC). Compared with its walkers the chain has the best AIC, and one of the walkers is as good. -/
theorem C134_aic (a : Args K) (c : Chain K) (hwf : a.samples.WF) (hshift : setting a .shiftParams = false)
    (h : Chain.make a = .ok c) (cs : List (Chain K)) (hcs : c.divide = .ok cs) (he : eligible c = true)
    (hN : ∀ N k, c.numEffDataPoints = some N → c.numFreeParams = some k → N ≠ k + 1) :
    ∃ rs, aic ((c.name, c) :: cs.map fun d => (d.name, d)) = .ok ((c.name, .fin 0) :: rs) ∧
      List.Forall₂ (fun d e => e.1 = d.name ∧ ∃ v, 0 ≤ v ∧ e.2 = .fin v) cs rs ∧ ∃ e ∈ rs, e.2 = .fin 0 := by
  have hall := divide_each hwf hshift h hcs
  have hp : c.posteriorColumn ∈ c.samples.columns := by
    simp only [eligible, Bool.and_eq_true, decide_eq_true_eq] at he
    exact he.1.1
  obtain ⟨m1, d, hd, m2⟩ := divide_max hwf hshift h hcs hp
  have hle : ∀ d ∈ cs, ∀ v v', AICc c v → AICc d v' → ∃ M M', MaxLogPosterior c M ∧ MaxLogPosterior d M' ∧ v' - v = 2 * (M - M') := by
    rintro d hd v v' ⟨k, N, M, e1, e2, e3, rfl⟩ ⟨k', N', M', f1, f2, f3, rfl⟩
    obtain ⟨-, ⟨i, b⟩, -, -⟩ := hall d hd
    rw [b.numFreeParams, e1] at f1
    rw [b.numEffDataPoints, e2] at f2
    cases f1; cases f2
    exact ⟨M, M', e3, f3, by ring⟩
  obtain ⟨r, hr, hrel⟩ := C17_aic_partial ((c.name, c) :: cs.map fun d => (d.name, d)) (by
    intro e hem
    rcases List.mem_cons.1 hem with rfl | hem
    · exact ⟨a, hwf, h⟩
    · obtain ⟨d, hd, rfl⟩ := List.mem_map.1 hem
      exact AcceptedNoShift.accepted (hall d hd).1) (by
    intro e hem
    rcases List.mem_cons.1 hem with rfl | hem
    · exact hN
    · obtain ⟨d, hd, rfl⟩ := List.mem_map.1 hem
      obtain ⟨-, ⟨i, b⟩, -, -⟩ := hall d hd
      dsimp only
      rw [b.numFreeParams, b.numEffDataPoints]
      exact hN)
  obtain ⟨rs, rfl, h1, h2⟩ := relative_whole he (divide_eligible hwf hshift h hcs he) (by
    intro d hd v v' hv hv'
    obtain ⟨M, M', g1, g2, g3⟩ := hle d hd v v' hv hv'
    have := m1 M g1 d hd M' g2
    linarith) (by
    refine ⟨d, hd, fun v v' hv hv' => ?_⟩
    obtain ⟨M, M', g1, g2, g3⟩ := hle d hd v v' hv hv'
    rw [m2 M M' g1 g2] at g3
    linarith) hrel
  exact ⟨rs, hr, h1, h2⟩

end

/-- **C134** (BIC). Compared with its walkers the chain has the best BIC, and one of the walkers is as good. -/
theorem C134_bic (a : Args ℝ) (c : Chain ℝ) (hwf : a.samples.WF) (hshift : setting a .shiftParams = false)
    (h : Chain.make a = .ok c) (cs : List (Chain ℝ)) (hcs : c.divide = .ok cs) (he : eligible c = true)
    (hN : c.numEffDataPoints ≠ some 0) :
    ∃ rs, bic ((c.name, c) :: cs.map fun d => (d.name, d)) = .ok ((c.name, .fin 0) :: rs) ∧
      List.Forall₂ (fun d e => e.1 = d.name ∧ ∃ v, 0 ≤ v ∧ e.2 = .fin v) cs rs ∧ ∃ e ∈ rs, e.2 = .fin 0 := by
  have hall := divide_each hwf hshift h hcs
  have hp : c.posteriorColumn ∈ c.samples.columns := by
    simp only [eligible, Bool.and_eq_true, decide_eq_true_eq] at he
    exact he.1.1
  obtain ⟨m1, d, hd, m2⟩ := divide_max hwf hshift h hcs hp
  have hle : ∀ d ∈ cs, ∀ v v', BIC c v → BIC d v' → ∃ M M', MaxLogPosterior c M ∧ MaxLogPosterior d M' ∧ v' - v = 2 * (M - M') := by
    rintro d hd v v' ⟨k, N, M, e1, e2, e3, rfl⟩ ⟨k', N', M', f1, f2, f3, rfl⟩
    obtain ⟨-, ⟨i, b⟩, -, -⟩ := hall d hd
    rw [b.numFreeParams, e1] at f1
    rw [b.numEffDataPoints, e2] at f2
    cases f1; cases f2
    exact ⟨M, M', e3, f3, by ring⟩
  obtain ⟨r, hr, hrel⟩ := C17_bic_partial ((c.name, c) :: cs.map fun d => (d.name, d)) (by
    intro e hem
    rcases List.mem_cons.1 hem with rfl | hem
    · exact ⟨a, hwf, h⟩
    · obtain ⟨d, hd, rfl⟩ := List.mem_map.1 hem
      exact AcceptedNoShift.accepted (hall d hd).1) (by
    intro e hem
    rcases List.mem_cons.1 hem with rfl | hem
    · exact hN
    · obtain ⟨d, hd, rfl⟩ := List.mem_map.1 hem
      obtain ⟨-, ⟨i, b⟩, -, -⟩ := hall d hd
      dsimp only
      rw [b.numEffDataPoints]
      exact hN)
  obtain ⟨rs, rfl, h1, h2⟩ := relative_whole he (divide_eligible hwf hshift h hcs he) (by
    intro d hd v v' hv hv'
    obtain ⟨M, M', g1, g2, g3⟩ := hle d hd v v' hv hv'
    have := m1 M g1 d hd M' g2
    linarith) (by
    refine ⟨d, hd, fun v v' hv hv' => ?_⟩
    obtain ⟨M, M', g1, g2, g3⟩ := hle d hd v v' hv hv'
    rw [m2 M M' g1 g2] at g3
    linarith) hrel
  exact ⟨rs, hr, h1, h2⟩

/-! ## Gelman and Rubin's statistic -/

theorem getD_flatten {n : Nat} {xs : List (List ℝ)} (hl : ∀ y ∈ xs, y.length = n) (j : Nat) {i : Nat} (hi : i < n) :
    xs.flatten.getD (j * n + i) 0 = (xs.getD j []).getD i 0 := by
  induction xs generalizing j with
  | nil => simp
  | cons y ys ih =>
    have hy := hl y List.mem_cons_self
    cases j with
    | zero =>
      rw [List.flatten_cons, Nat.zero_mul, Nat.zero_add, List.getD_eq_getElem?_getD, List.getElem?_append_left (by omega),
        ← List.getD_eq_getElem?_getD]
      rfl
    | succ j =>
      rw [List.flatten_cons, List.getD_eq_getElem?_getD, List.getElem?_append_right (by rw [hy, Nat.succ_mul]; omega), hy,
        ← List.getD_eq_getElem?_getD, show (j + 1) * n + i - n = j * n + i by rw [Nat.succ_mul]; omega,
        ih (fun z hz => hl z (List.mem_cons_of_mem _ hz))]
      rfl

theorem sum_getD_rows {xs : List (List ℝ)} {m : Nat} (hm : xs.length = m) (f : List ℝ → ℝ) :
    ∑ j : Fin m, f (xs.getD j.val []) = (xs.map f).sum := by
  subst hm
  conv_rhs => rw [eq_ofFn xs]
  rw [List.map_ofFn, List.sum_ofFn]
  refine Finset.sum_congr rfl fun j _ => ?_
  simp

theorem sum_row {y : List ℝ} {n : Nat} (hn : y.length = n) (f : ℝ → ℝ) : ∑ i : Fin n, f (y.getD i.val 0) = (y.map f).sum := by
  subst hn
  conv_rhs => rw [eq_ofFn y]
  rw [List.map_ofFn, List.sum_ofFn]
  refine Finset.sum_congr rfl fun j _ => ?_
  simp

theorem replicate_sums (v : ℝ) (x : List ℝ) :
    (((List.replicate x.length v).zip x).map fun e => e.1 * e.2).sum = v * x.sum ∧
    (((List.replicate x.length v).zip (x.zip x)).map fun e => e.1 * e.2.1 * e.2.2).sum = v * (x.map (· ^ 2)).sum := by
  induction x with
  | nil => simp
  | cons y x ih =>
    simp only [List.length_cons, List.replicate_succ, List.zip_cons_cons, List.map_cons, List.sum_cons, ih.1, ih.2]
    constructor <;> ring

/-- The variance reported for samples of equal weight. -/
theorem equal_cov {d : Chain ℝ} (hd : AcceptedNoShift d) (hrows : 2 ≤ d.samples.index.length) {v : ℝ}
    (hw : ∀ w, d.weights = .ok w → ∀ u ∈ w, u = v) {p : String} {x : List ℝ} (hx : d.samples.get p = .ok x) :
    x.length = d.samples.index.length ∧
    ∃ u, ReportsCov d p p u ∧ ((x.length : ℝ) - 1) * u = (x.map (· ^ 2)).sum - x.sum ^ 2 / x.length := by
  obtain ⟨t, ⟨t1, t2, t3, t4⟩, t5, t6, t7, t8, t9, t10⟩ := reports_cov hd hrows
    (List.mem_map_of_mem (f := Prod.fst) (get_mem hx)) (List.mem_map_of_mem (f := Prod.fst) (get_mem hx))
  cases hx.symm.trans t2
  have hy : t.y = t.x := by
    have := t3.symm.trans t2
    injection this
  refine ⟨by omega, t.cov, t4, ?_⟩
  have hl : t.weights = List.replicate t.x.length v := by
    rw [t7]
    exact List.eq_replicate_of_mem (hw _ t1)
  have hv : v ≠ 0 := by
    rintro rfl
    rw [hl] at t9
    simp at t9
  have hn : (t.x.length : ℝ) ≠ 0 := by
    have : t.x.length ≠ 0 := by omega
    exact_mod_cast this
  obtain ⟨r1, r2⟩ := replicate_sums v t.x
  rw [hy, hl, r1, r2, freedom] at t10
  simp only [List.map_replicate, List.sum_replicate, nsmul_eq_mul] at t10
  field_simp at t10 ⊢
  linear_combination t10

theorem sum_dev (y : List ℝ) (μ : ℝ) : (y.map fun v => (v - μ) ^ 2).sum = (y.map (· ^ 2)).sum - 2 * μ * y.sum + y.length * μ ^ 2 := by
  induction y with
  | nil => simp
  | cons v y ih => simp only [List.map_cons, List.sum_cons, ih, List.length_cons]; push_cast; ring

/-- Within- and between-walker variances from sums. -/
theorem gelman_sums {m n : Nat} (hm : 1 < m) (hn : 1 < n) {xs : List (List ℝ)} (hlen : xs.length = m) (hl : ∀ y ∈ xs, y.length = n) :
    within (steps xs.flatten m n) = (xs.map fun y => ((y.map (· ^ 2)).sum - y.sum ^ 2 / (n : ℝ)) / ((n : ℝ) - 1)).sum / m ∧
    between (steps xs.flatten m n) = ((xs.map fun y => y.sum ^ 2 / (n : ℝ)).sum - (xs.flatten).sum ^ 2 / (m * n)) / (m - 1) := by
  have hn0 : (n : ℝ) ≠ 0 := by
    have : n ≠ 0 := by omega
    exact_mod_cast this
  have hm0 : (m : ℝ) ≠ 0 := by
    have : m ≠ 0 := by omega
    exact_mod_cast this
  have hm1 : (m : ℝ) - 1 ≠ 0 := by
    have : (1 : ℝ) < m := by exact_mod_cast hm
    linarith
  have hget : ∀ j : Fin m, xs.getD j.val [] ∈ xs := by
    intro j
    have : j.val < xs.length := by rw [hlen]; exact j.2
    rw [List.getD_eq_getElem?_getD, List.getElem?_eq_getElem this]
    exact List.getElem_mem _
  have hstep : ∀ (j : Fin m) (f : ℝ → ℝ), ∑ i : Fin n, f (steps xs.flatten m n j i) = ((xs.getD j.val []).map f).sum := by
    intro j f
    rw [← sum_row (hl _ (hget j)) f]
    refine Finset.sum_congr rfl fun i _ => ?_
    rw [steps, getD_flatten hl _ i.2]
  have hmean : ∀ j : Fin m, walkerMean (steps xs.flatten m n) j = (xs.getD j.val []).sum / n := by
    intro j
    have := hstep j id
    simp only [id, List.map_id] at this
    rw [walkerMean, this]
  have hgrand : grandMean (steps xs.flatten m n) = xs.flatten.sum / (m * n) := by
    rw [grandMean]
    simp only [hmean]
    have hs : ∀ l : List (List ℝ), (l.map fun y => y.sum / (n : ℝ)).sum = l.flatten.sum / n := by
      intro l
      induction l with
      | nil => simp
      | cons y l ih => simp only [List.map_cons, List.sum_cons, ih, List.flatten_cons, List.sum_append, add_div]
    rw [sum_getD_rows hlen (fun y => y.sum / n), hs]
    field_simp
  constructor
  · rw [within]
    have : ∀ j : Fin m, (1 : ℝ) / (n - 1) * ∑ i, (steps xs.flatten m n j i - walkerMean (steps xs.flatten m n) j) ^ 2 =
        (fun y : List ℝ => ((y.map (· ^ 2)).sum - y.sum ^ 2 / n) / (n - 1)) (xs.getD j.val []) := by
      intro j
      dsimp only
      rw [hstep j (fun u => (u - walkerMean (steps xs.flatten m n) j) ^ 2), sum_dev, hmean, hl _ (hget j)]
      field_simp
      ring
    rw [Finset.sum_congr rfl fun j _ => this j,
      sum_getD_rows hlen (fun y : List ℝ => ((y.map (· ^ 2)).sum - y.sum ^ 2 / (n : ℝ)) / ((n : ℝ) - 1))]
    ring
  · rw [between]
    have : ∀ j : Fin m, (walkerMean (steps xs.flatten m n) j - grandMean (steps xs.flatten m n)) ^ 2 =
        (fun y : List ℝ => (y.sum / n - xs.flatten.sum / (m * n)) ^ 2) (xs.getD j.val []) := by
      intro j
      rw [hmean, hgrand]
    rw [Finset.sum_congr rfl fun j _ => this j,
      sum_getD_rows hlen (fun y : List ℝ => (y.sum / n - xs.flatten.sum / (m * n)) ^ 2)]
    have hsq : ∀ (l : List (List ℝ)) (μ : ℝ), (l.map fun y => (y.sum / (n : ℝ) - μ) ^ 2).sum =
        (l.map fun y => y.sum ^ 2 / (n : ℝ)).sum / n - 2 * μ * l.flatten.sum / n + l.length * μ ^ 2 := by
      intro l μ
      induction l with
      | nil => simp
      | cons y l ih =>
        simp only [List.map_cons, List.sum_cons, ih, List.flatten_cons, List.sum_append, List.length_cons]
        push_cast
        field_simp
        ring
    rw [hsq, hlen]
    field_simp
    ring

/-- **C134** (`gelman_rubin`). For samples of equal weight the verdict follows from the variances that `get_covariance` reports for
the chain and for its walkers. -/
theorem C134_gelman_rubin (a : Args ℝ) (c : Chain ℝ) (hwf : a.samples.WF) (hshift : setting a .shiftParams = false)
    (h : Chain.make a = .ok c) (m n : Nat) (hn : 1 < n) (hwalk : c.walkers = m) (hrows : c.samples.index.length = m * n)
    (cs : List (Chain ℝ)) (hcs : c.divide = .ok cs) {v : ℝ} (hv : ∀ w, c.weights = .ok w → ∀ u ∈ w, u = v) (threshold : ℝ) :
    ∃ b, gelmanOne threshold c = .ok b ∧ (b = true ↔ ∀ p ∈ c.dataColumns,
      ∃ (V : ℝ) (Vs : List ℝ), ReportsCov c p p V ∧ List.Forall₂ (fun d u => ReportsCov d p p u) cs Vs ∧
        ∃ W B : ℝ, W = Vs.sum / m ∧ B = ((m * n - 1) * V - (n - 1) * Vs.sum) / (m - 1) ∧ W ≠ 0 ∧
          |√(((n - 1) / n * W + B / n + B / (m * n)) / W) - 1| < threshold) := by
  obtain ⟨hw, -, -, -⟩ := divide_ok_iff.1 hcs
  have hm : 1 < m := hwalk ▸ hw
  obtain ⟨w1, -, -, -, -, -⟩ := make_WF hwf h
  have hall := divide_each hwf hshift h hcs
  have hcl : cs.length = m := by
    obtain ⟨-, -, -, hf⟩ := divide_ok_iff.1 hcs
    have := hf.length_eq
    rw [List.length_range] at this
    omega
  obtain ⟨b, hb, hiff⟩ := C21_gelman_rubin_verdict a c hwf h m n hm hn hwalk hrows threshold
  refine ⟨b, hb, hiff.trans (forall₂_congr fun p hp => ?_)⟩
  obtain ⟨x, hx⟩ := get_ok_of_mem (List.mem_filter.1 hp).1
  have key : ∃ (V : ℝ) (Vs : List ℝ), ReportsCov c p p V ∧ List.Forall₂ (fun d u => ReportsCov d p p u) cs Vs ∧
      within (steps x m n) = Vs.sum / m ∧ between (steps x m n) = ((m * n - 1) * V - (n - 1) * Vs.sum) / (m - 1) := by
    obtain ⟨xs, hxs, rfl⟩ := divide_column hwf hshift h hcs hx
    obtain ⟨w, hwt⟩ := get_ok_of_mem (make_WF hwf h).2.2.2.1
    obtain ⟨ws, hws, hwfl⟩ := divide_column hwf hshift h hcs hwt
    have hrow2 : 2 ≤ m * n := by
      have := Nat.mul_le_mul (show 2 ≤ m by omega) (show 1 ≤ n by omega)
      omega
    obtain ⟨hxl, V, hV, hV'⟩ := equal_cov ⟨a, hwf, hshift, h⟩ (by omega) hv hx
    have hd : ∀ d ∈ cs, ∀ y, d.samples.get p = .ok y → y.length = n ∧ ∃ u, ReportsCov d p p u ∧
        ((n : ℝ) - 1) * u = (y.map (· ^ 2)).sum - y.sum ^ 2 / n := by
      intro d hdm y hy
      obtain ⟨d1, ⟨i, d2⟩, d3, d4⟩ := hall d hdm
      have hdn : d.samples.index.length = n := by
        rw [hwalk, hrows, Nat.mul_comm] at d4
        exact Nat.eq_of_mul_eq_mul_left (by omega) d4
      obtain ⟨g1, u, g2, g3⟩ := equal_cov d1 (by omega) (v := v) (by
        intro w' hw' u hu
        obtain ⟨w'', hw2, hw3⟩ := part_mem_right hws.flip hdm
        change d.samples.get d.weightColumn = _ at hw'
        rw [d2.weightColumn] at hw'
        cases hw'.symm.trans hw3
        exact hv w hwt u (hwfl ▸ List.mem_flatten.2 ⟨w', hw2, hu⟩)) hy
      rw [g1, hdn] at g3
      exact ⟨g1.trans hdn, u, g2, g3⟩
    obtain ⟨Vs, hVs⟩ := part_exists (l := cs) (R := fun d u => ReportsCov d p p u ∧ ∀ y, d.samples.get p = .ok y →
        ((n : ℝ) - 1) * u = (y.map (· ^ 2)).sum - y.sum ^ 2 / n) (by
      intro d hdm
      obtain ⟨y, -, hy⟩ := part_mem_right hxs.flip hdm
      obtain ⟨-, u, h1, h2⟩ := hd d hdm y hy
      refine ⟨u, h1, fun y' hy' => ?_⟩
      cases hy.symm.trans hy'
      exact h2)
    have hlen : xs.length = m := hxs.length_eq.symm.trans hcl
    obtain ⟨g1, g2⟩ := gelman_sums hm hn hlen (fun y hy => by
      obtain ⟨d, hdm, hdy⟩ := part_mem_right hxs hy
      exact (hd d hdm y hdy).1)
    have hn1 : (n : ℝ) - 1 ≠ 0 := by
      have : (1 : ℝ) < n := by exact_mod_cast hn
      linarith
    have hsum : (xs.map fun y => ((y.map (· ^ 2)).sum - y.sum ^ 2 / (n : ℝ)) / ((n : ℝ) - 1)).sum = Vs.sum ∧
        (n - 1) * Vs.sum = (xs.flatten.map (· ^ 2)).sum - (xs.map fun y => y.sum ^ 2 / (n : ℝ)).sum := by
      clear g1 g2 hlen hd hV' hV hxl hx hcl hall hcs hws
      induction hVs generalizing xs with
      | nil => cases hxs; simp
      | cons q1 _ ih =>
        cases hxs with
        | cons q2 q3 =>
          obtain ⟨i1, i2⟩ := ih _ q3
          have := q1.2 _ q2
          simp only [List.map_cons, List.sum_cons, List.flatten_cons, List.map_append, List.sum_append, i1, ← this]
          constructor
          · rw [mul_div_cancel_left₀ _ hn1]
          · rw [mul_add, i2, this]
            ring
    refine ⟨V, Vs, hV, hVs.imp fun _ _ h => h.1, by rw [g1, hsum.1], ?_⟩
    rw [g2, hsum.2]
    rw [hxl, hrows] at hV'
    push_cast at hV'
    rw [hV']
    congr 1
    ring
  obtain ⟨V, Vs, k1, k2, k3, k4⟩ := key
  constructor
  · intro hall
    obtain ⟨g1, g2⟩ := hall x (get_mem hx)
    exact ⟨V, Vs, k1, k2, _, _, k3, k4, g1, g2⟩
  · rintro ⟨V', Vs', l1, l2, W, B, rfl, rfl, l3, l4⟩ y hy
    have hu : ∀ {d : Chain ℝ} {u u' : ℝ}, ReportsCov d p p u → ReportsCov d p p u' → u = u' := by
      rintro d u u' ⟨a1, a2, h1⟩ ⟨b1, b2, h2⟩
      have := h1.symm.trans h2
      simp only [Except.ok.injEq, NamedMatrix.mk.injEq, CovArray.matrix.injEq, List.cons.injEq, Flt.fin.injEq] at this
      exact this.2.1.2.1
    have e1 := hu k1 l1
    have e2 : Vs = Vs' := by
      clear k3 k4 l3 l4 hall hcl hcs
      induction k2 generalizing Vs' with
      | nil => cases l2; rfl
      | cons q1 _ ih =>
        cases l2 with
        | cons q2 q3 => rw [hu q1 q2, ih _ q3]
    subst e1 e2
    cases hx.symm.trans (get_of_mem w1.1 hy)
    rw [← k3, ← k4] at l4
    rw [← k3] at l3
    exact ⟨l3, l4⟩

/-! ## Best points -/

/-- **C134** is violated by the best point: that of the chain is reported, but asking any walker besides the first for its own raises
KeyError. (`C12_divided_walkers_fail` has the reason: walkers keep the row labels of the chain.) -/
theorem C134_violated {K : Type} [Field K] [LinearOrder K] [IsStrictOrderedRing K] (a : Args K) (c : Chain K) (hwf : a.samples.WF)
    (hshift : setting a .shiftParams = false) (h : Chain.make a = .ok c) (hidx : DefaultIndex c.samples)
    (hp : c.posteriorColumn ∈ c.samples.columns) (cs : List (Chain K)) (hcs : c.divide = .ok cs) :
    (∃ b, c.maxPosteriorPoint = .ok (some b)) ∧ 1 < cs.length ∧
      ∀ i, 0 < i → ∀ d, cs[i]? = some d → d.maxPosteriorPoint = .error .key := by
  obtain ⟨x, hx⟩ := get_ok_of_mem hp
  obtain ⟨b, -, hb, -⟩ := C12_max_posterior_partial a c hwf h hidx x hx
  refine ⟨⟨b, hb⟩, ?_, ?_⟩
  · obtain ⟨h1, -, -, hf⟩ := divide_ok_iff.1 hcs
    have := hf.length_eq
    rw [List.length_range] at this
    omega
  · intro i hi d hd
    obtain ⟨hi', rfl⟩ := List.getElem?_eq_some_iff.1 hd
    exact C12_divided_walkers_fail a c hwf hshift h hidx hp cs hcs i hi hi'

/-- The hypotheses of all theorems of this file are met: two walkers with two steps each, equal weights, a posterior and counts. -/
example : ∃ (a : Args ℝ) (c : Chain ℝ) (cs : List (Chain ℝ)), a.samples.WF ∧ setting a .shiftParams = false ∧ Chain.make a = .ok c ∧
    c.divide = .ok cs ∧ c.walkers = 2 ∧ c.grid = false ∧ c.samples.index.length = 2 * 2 ∧ "a" ∈ c.samples.columns ∧
    (∀ w, c.weights = .ok w → ∀ u ∈ w, u = 3) ∧ eligible c = true ∧ c.numEffDataPoints = some 7 ∧ c.numFreeParams = some 1 ∧
    DefaultIndex c.samples := by
  let f : Frame ℝ := { index := [.int 0, .int 1, .int 2, .int 3],
                       cols := [("a", [1, 2, 5, 7]), ("weight", [3, 3, 3, 3]), ("log_posterior", [0, -1, 2, 3])] }
  have hf : f.WF := ⟨by simp [f], by simp [f]⟩
  obtain ⟨c, hc, hcs, hw, hp, -⟩ := plain_chain_walkers f hf (by simp [f]) (w := [3, 3, 3, 3]) rfl (by simp) "c" 2 (by simp) (by simp [f])
  obtain ⟨col, raw, f0, f', h1, h2, h3, h4, h5, h6, h7, h8, -, h10, rfl⟩ := Chain.make_ok_iff.1 hc
  have hmk := (Chain.make_ok_iff (K := ℝ)
    (a := { samples := f.toRaw, name := "c", walkers := (2 : Nat), numFreeParams := some 1, numEffDataPoints := some (.fin 7) })).2
      ⟨col, raw, f0, f', h1, by
      rw [Bool.and_eq_true] at h2 ⊢
      refine ⟨h2.1, ?_⟩
      simp [Args.constraintsOk, Flt.geZero], h3, h4, h5, h6, h7, h8, by simp [Flt.isFinite], h10, rfl⟩
  obtain ⟨cs, hdiv⟩ := C11_divide_succeeds_partial _ _ (toRaw_WF.2 hf) rfl hmk (by simp) rfl
  dsimp only at hcs
  refine ⟨_, _, cs, toRaw_WF.2 hf, rfl, hmk, hdiv, by simp, rfl, ?_, ?_, ?_, ?_, rfl, by simp, ?_⟩
  · simp [hcs, f]
  · simp [hcs, f, Frame.columns]
  · intro w hw u hu
    have : w = [3, 3, 3, 3] := by
      simp only [Chain.weights, hcs] at hw
      have e : f.get "weight" = .ok [3, 3, 3, 3] := rfl
      cases e.symm.trans hw
      rfl
    subst this
    simpa using hu
  · simp [eligible, hcs, f, Frame.columns, Flt.toFin?]
  · simp [DefaultIndex, hcs, f, List.range, List.range.loop]

end CC
