import Verif.Model.Examples
import Verif.Lemmas.Except
import Verif.Lemmas.Make
import Verif.Lemmas.Frame
import Verif.Lemmas.Demo
import Verif.Props.Chain
import Verif.Props.Registry
import Mathlib.Algebra.Order.BigOperators.Ring.Finset
import Mathlib.Algebra.Order.Chebyshev
import Mathlib.Algebra.BigOperators.Field

/-! # C106: example samples -/

namespace CC
open Spec

/-- **C106** (distribution). The matrix that the samples are drawn with is a correlation matrix: symmetric, ones on the diagonal,
entries from -1 to 1, and no linear combination of the parameters has a negative variance. It depends on the seed only. -/
theorem C106_correlation (g : ExampleDraws) (d : Nat) (h : ∀ i, i < d → ∃ k, k < d ∧ g.unit i k ≠ 1 / 2) :
    (∀ i j, exampleCor g d i j = exampleCor g d j i) ∧ (∀ i, i < d → exampleCor g d i i = 1) ∧
    (∀ i j, i < d → j < d → |exampleCor g d i j| ≤ 1) ∧
    (∀ x : Fin d → ℝ, 0 ≤ ∑ i : Fin d, ∑ j : Fin d, x i * exampleCor g d i j * x j) := by
  have hpos : ∀ i, i < d → 0 < exampleCov g d i i := by
    intro i hi
    obtain ⟨k, hk, hne⟩ := h i hi
    unfold exampleCov
    refine Finset.sum_pos' (fun k _ => mul_self_nonneg _) ⟨⟨k, hk⟩, Finset.mem_univ _, ?_⟩
    exact mul_self_pos.2 (sub_ne_zero.2 hne)
  refine ⟨fun i j => ?_, fun i hi => ?_, fun i j hi hj => ?_, fun x => ?_⟩
  · unfold exampleCor
    rw [mul_comm (√_) (√_)]
    congr 1
    exact Finset.sum_congr rfl fun k _ => mul_comm _ _
  · unfold exampleCor
    rw [Real.mul_self_sqrt (hpos i hi).le, div_self (hpos i hi).ne']
  · unfold exampleCor
    rw [abs_div, abs_of_nonneg (mul_nonneg (Real.sqrt_nonneg _) (Real.sqrt_nonneg _)),
      div_le_one (mul_pos (Real.sqrt_pos.2 (hpos i hi)) (Real.sqrt_pos.2 (hpos j hj))), ← Real.sqrt_mul (hpos i hi).le]
    refine Real.abs_le_sqrt ?_
    have := Finset.sum_mul_sq_le_sq_mul_sq Finset.univ (fun k : Fin d => g.unit i k - 1 / 2) (fun k : Fin d => g.unit j k - 1 / 2)
    simpa only [exampleCov, pow_two] using this
  · have key : ∑ i : Fin d, ∑ j : Fin d, x i * exampleCor g d i j * x j =
        ∑ k : Fin d, (∑ i : Fin d, x i / √(exampleCov g d i i) * (g.unit i k - 1 / 2)) ^ 2 := by
      have e : ∀ k : Fin d, (∑ i : Fin d, x i / √(exampleCov g d i i) * (g.unit i k - 1 / 2)) ^ 2 =
          ∑ i : Fin d, ∑ j : Fin d, (x i / √(exampleCov g d i i) * (g.unit i k - 1 / 2)) *
            (x j / √(exampleCov g d j j) * (g.unit j k - 1 / 2)) := by
        intro k
        rw [pow_two, Finset.sum_mul_sum]
      simp only [e]
      conv_rhs => rw [Finset.sum_comm]
      refine Finset.sum_congr rfl fun i _ => ?_
      conv_rhs => rw [Finset.sum_comm]
      refine Finset.sum_congr rfl fun j _ => ?_
      rw [exampleCor]
      generalize √(exampleCov g d i i) = a
      generalize √(exampleCov g d j j) = b
      rw [exampleCov, Finset.sum_div, Finset.mul_sum, Finset.sum_mul]
      refine Finset.sum_congr rfl fun k _ => ?_
      ring
    rw [key]
    exact Finset.sum_nonneg fun k _ => sq_nonneg _

/-- The names of the parameters: one character each, from "A" on. -/
def Spec.letters (d : Nat) : List String := (List.range d).map fun i => String.ofList [Char.ofNat (65 + i)]

theorem letter_inj {d i j : Nat} (hd : d ≤ 50000) (hi : i < d) (hj : j < d) (h : exampleColumn i = exampleColumn j) : i = j := by
  unfold exampleColumn at h
  have h1 := congrArg String.toList h
  simp only [String.toList_ofList, List.cons.injEq, and_true] at h1
  have h2 := congrArg Char.toNat h1
  have key : ∀ k, k < d → (Char.ofNat (65 + k)).toNat = 65 + k := by
    intro k hk
    have hv : (65 + k).isValidChar := Or.inl (by omega)
    unfold Char.ofNat
    rw [dif_pos hv]
    rfl
  rw [key i hi, key j hj] at h2
  omega

theorem letter_length (i : Nat) : (exampleColumn i).toList.length = 1 := by
  unfold exampleColumn; rw [String.toList_ofList]; rfl

theorem letter_not_reserved (i : Nat) : pyLower (exampleColumn i) ∉ Chain.reserved := by
  intro h
  have h1 : ∀ s ∈ Chain.reserved, 6 ≤ s.toList.length := by decide
  have h2 := h1 _ h
  rw [pyLower, String.toList_ofList, List.length_map, letter_length] at h2
  omega

theorem letter_ne (i : Nat) {s : String} (h : s.toList.length ≠ 1) : exampleColumn i ≠ s := by
  rintro rfl
  exact h (letter_length i)

theorem ones_chain {K : Type} [Field K] [LinearOrder K] [IsStrictOrderedRing K] (f : Frame K) (hf : f.WF) (hne : f.index ≠ [])
    (hcols : f.cols ≠ []) (hw : "weight" ∉ f.columns) (name : String) :
    ∃ c, Chain.make { samples := f.toRaw, name := name } = .ok c ∧
      c.samples.columns = f.columns ++ ["weight"] ∧ c.weightColumn = "weight" ∧ c.posteriorColumn = "log_posterior" ∧
      (∀ e ∈ f.cols, c.samples.get e.1 = .ok e.2) ∧ c.weights = .ok (List.replicate f.index.length 1) := by
  have hwf : ({ f with cols := f.cols ++ [("weight", List.replicate f.index.length (1 : K))] } : Frame K).WF := by
    refine ⟨?_, ?_⟩
    · rw [List.map_append, List.nodup_append]
      refine ⟨hf.1, by simp, ?_⟩
      rintro a ha b hb rfl
      simp only [List.map_cons, List.map_nil, List.mem_singleton] at hb
      subst hb
      exact hw ha
    · intro e he
      rcases List.mem_append.1 he with he | he
      · exact hf.2 e he
      · rw [List.mem_singleton.1 he]; simp
  have hget : ∀ e ∈ f.cols ++ [("weight", List.replicate f.index.length (1 : K))],
      ({ f with cols := f.cols ++ [("weight", List.replicate f.index.length (1 : K))] } : Frame K).get e.1 = .ok e.2 := by
    intro e he
    rw [Frame.get, lookup_eq_some_of_mem hwf.1 he]
  have hgw := hget _ (List.mem_append_right _ (List.mem_singleton.2 rfl))
  obtain ⟨c, hc, h1, h2, h3, -⟩ := plain_chain { f with cols := f.cols ++ [("weight", List.replicate f.index.length (1 : K))] }
    hwf hne hgw (by
      intro x hx
      rw [List.eq_of_mem_replicate hx]
      exact one_pos) name
  refine ⟨c, ?_, by rw [h1]; simp [Frame.columns], h2, h3, fun e he => by rw [h1]; exact hget e (List.mem_append_left _ he),
    by rw [Chain.weights, h1, h2]; exact hgw⟩
  obtain ⟨col, raw, f0, f1, g1, g2, g3, g4, g5, g6, g7, g8, g9, g10, rfl⟩ := Chain.make_ok_iff.1 hc
  refine Chain.make_ok_iff.2 ⟨col, raw, f0, f1, g1, g2, ?_, ?_, g5, g6, g7, g8, g9, g10, rfl⟩
  · simp [RawFrame.empty, Frame.toRaw, hne, hcols]
  · rw [← g4]
    simp only [addWeights, Frame.toRaw]
    have e1 : (f.cols.map fun c : String × List K => (ColLabel.str c.1, c.2.map Flt.fin)).lookup (.str "weight") = none := by
      rw [lookup_eq_none_iff]
      intro h
      obtain ⟨q, hq, he⟩ := List.mem_map.1 h
      obtain ⟨e, he', rfl⟩ := List.mem_map.1 hq
      simp only [ColLabel.str.injEq] at he
      exact hw (List.mem_map.2 ⟨e, he', he⟩)
    have e2 : ((f.cols ++ [("weight", List.replicate f.index.length (1 : K))]).map
        fun c : String × List K => (ColLabel.str c.1, c.2.map Flt.fin)).lookup (.str "weight") =
        some ((List.replicate f.index.length (1 : K)).map Flt.fin) := by
      rw [List.map_append, List.lookup_append, e1]
      simp
    rw [e1, e2]
    simp [Flt.gtZero]

/-- **C106, partial** (samples). For any number of rows but one, the table has one column for each dimension, named A, B, …, and the
logarithm of the density of every row; with at least one row it makes a chain whose parameters are these columns, whose posterior
is recognised and whose weights are all one. Missing: a single row (`C106_violated_single`), and samples that are the same for the
same seed (`C106_violated_seed`). -/
theorem C106_sample_partial {G : Type} (lib : NormalLib G) (gen : Option Nat → ExampleDraws) (state : G) (d : Nat) (hd : 1 ≤ d)
    (hd' : d ≤ 50000) (seed : Option Nat) (randomise : Bool) (n : Nat) (hn : n ≠ 1)
    (hreg : lib.regular (exampleCor (gen seed) d) d = true)
    (hrvs : ∀ s m c, (lib.rvs s m c d n).length = n) :
    ∃ f, makeSample lib gen state d seed randomise n = .ok f ∧ f.index.length = n ∧ f.columns = letters d ++ ["log_posterior"] ∧
      (∀ i, i < d → f.get (String.ofList [Char.ofNat (65 + i)]) =
        .ok ((lib.rvs state (fun i => i * 5 + if randomise then (gen seed).shift i else 0) (exampleCor (gen seed) d) d n).map
          fun r => r.getD i 0)) ∧
      (1 ≤ n → ∀ name, ∃ c, Chain.make { samples := f.toRaw, name := name } = .ok c ∧ c.dataColumns = letters d ∧
        c.samples.get c.posteriorColumn = .ok ((lib.rvs state (fun i => i * 5 + if randomise then (gen seed).shift i else 0)
          (exampleCor (gen seed) d) d n).map
          (lib.logpdf (fun i => i * 5 + if randomise then (gen seed).shift i else 0) (exampleCor (gen seed) d) d)) ∧
        c.weights = .ok (List.replicate n 1)) := by
  have hm : exampleMean (gen seed) randomise = fun i : Nat => (i : ℝ) * 5 + if randomise then (gen seed).shift i else 0 := rfl
  have hlen := hrvs state (exampleMean (gen seed) randomise) (exampleCor (gen seed) d)
  rw [← hm]
  generalize hrows : lib.rvs state (exampleMean (gen seed) randomise) (exampleCor (gen seed) d) d n = rows at hlen
  have hnodup : ((List.range d).map exampleColumn).Nodup := by
    refine List.Nodup.map_on ?_ List.nodup_range
    intro i hi j hj h
    exact letter_inj hd' (List.mem_range.1 hi) (List.mem_range.1 hj) h
  have hcols : (((List.range d).map fun i => (exampleColumn i, rows.map fun r => r.getD i 0)) ++
      [("log_posterior", rows.map (lib.logpdf (exampleMean (gen seed) randomise) (exampleCor (gen seed) d) d))]).map Prod.fst =
      (List.range d).map exampleColumn ++ ["log_posterior"] := by
    simp
  have hfull : ((((List.range d).map fun i => (exampleColumn i, rows.map fun r => r.getD i 0)) ++
      [("log_posterior", rows.map (lib.logpdf (exampleMean (gen seed) randomise) (exampleCor (gen seed) d) d))]).map Prod.fst).Nodup := by
    rw [hcols, List.nodup_append]
    refine ⟨hnodup, by simp, ?_⟩
    intro a ha b hb
    obtain ⟨i, -, rfl⟩ := List.mem_map.1 ha
    rw [List.mem_singleton.1 hb]
    exact letter_ne i (by decide)
  refine ⟨{ index := (List.range rows.length).map fun (i : Nat) => Label.int i
            cols := ((List.range d).map fun i => (exampleColumn i, rows.map fun r => r.getD i 0)) ++
              [("log_posterior", rows.map (lib.logpdf (exampleMean (gen seed) randomise) (exampleCor (gen seed) d) d))] },
    ?_, by simp [hlen], ?_, ?_, ?_⟩
  · simp only [makeSample, hreg, hd, hn, hrows, ensure, decide_true, if_true, ne_eq, not_false_eq_true, bind, Except.bind, pure, Except.pure]
  · exact hcols
  · intro i hi
    simp only [Frame.get]
    rw [lookup_eq_some_of_mem hfull (v := rows.map fun r => r.getD i 0)]
    refine List.mem_append_left _ (List.mem_map.2 ⟨i, List.mem_range.2 hi, rfl⟩)
  · intro hn1 name
    obtain ⟨c, c1, c2, c3, c4, c5, c6⟩ := ones_chain { index := (List.range rows.length).map fun (i : Nat) => Label.int i
                                                       cols := ((List.range d).map fun i => (exampleColumn i, rows.map fun r => r.getD i 0)) ++
                                                         [("log_posterior", rows.map (lib.logpdf (exampleMean (gen seed) randomise)
                                                           (exampleCor (gen seed) d) d))] }
      ⟨hfull, by
        intro c hc
        simp only [List.mem_append, List.mem_map, List.mem_singleton] at hc
        rcases hc with ⟨i, -, rfl⟩ | rfl <;> simp⟩ (by simp [← List.length_pos_iff]; omega) (by simp) (by
        rw [Frame.columns, hcols]
        simp only [List.mem_append, List.mem_map, List.mem_singleton, not_or, not_exists, not_and]
        exact ⟨fun i _ => letter_ne i (by decide), by decide⟩) name
    refine ⟨c, c1, ?_, ?_, ?_⟩
    · unfold Chain.dataColumns
      rw [c2, c3, c4, Frame.columns, hcols, List.filter_append, List.filter_append, List.filter_eq_self.2]
      · simp [letters, exampleColumn]
      · intro x hx
        obtain ⟨i, -, rfl⟩ := List.mem_map.1 hx
        have h1 : exampleColumn i ≠ "weight" := letter_ne i (by decide)
        have h2 : exampleColumn i ≠ "log_posterior" := letter_ne i (by decide)
        simp [h1, h2, letter_not_reserved i]
    · rw [c4]
      exact c5 ("log_posterior", _) (by simp)
    · rw [c6]
      simp [hlen]

/-- **C106, violated.** Asking for one row raises ValueError. -/
theorem C106_violated_single {G : Type} (lib : NormalLib G) (gen : Option Nat → ExampleDraws) (state : G) (d : Nat) (hd : 1 ≤ d)
    (seed : Option Nat) (randomise : Bool) : makeSample lib gen state d seed randomise 1 = .error .value := by
  simp only [makeSample, hd, ensure, decide_true, if_true, ne_eq, not_true_eq_false, decide_false, bind, Except.bind]
  cases lib.regular (exampleCor (gen seed) d) d <;> simp

/-- **C106, violated.** The seed does not determine the samples: they differ as soon as the first numbers that scipy draws from two
states of numpy's global generator differ. -/
theorem C106_violated_seed {G : Type} (lib : NormalLib G) (gen : Option Nat → ExampleDraws) (s s' : G) (d : Nat) (hd : 1 ≤ d)
    (seed : Option Nat) (randomise : Bool) (n : Nat) (hn : n ≠ 1) (hreg : lib.regular (exampleCor (gen seed) d) d = true)
    (hdiff : (lib.rvs s (exampleMean (gen seed) randomise) (exampleCor (gen seed) d) d n).map (·.getD 0 0) ≠
      (lib.rvs s' (exampleMean (gen seed) randomise) (exampleCor (gen seed) d) d n).map (·.getD 0 0)) :
    ∃ f f', makeSample lib gen s d seed randomise n = .ok f ∧ makeSample lib gen s' d seed randomise n = .ok f' ∧
      f.get "A" ≠ f'.get "A" := by
  obtain ⟨k, rfl⟩ : ∃ k, d = k + 1 := ⟨d - 1, by omega⟩
  have h0 : exampleColumn 0 = "A" := by decide
  simp only [makeSample, hreg, hd, hn, ensure, decide_true, if_true, ne_eq, not_false_eq_true, bind, Except.bind, pure, Except.pure,
    Except.ok.injEq]
  refine ⟨_, _, rfl, rfl, ?_⟩
  simp only [Frame.get, List.range_succ_eq_map, List.map_cons, List.cons_append, h0, List.lookup_cons, beq_self_eq_true,
    Except.ok.injEq]
  exact hdiff

/-- A generator for two independent parameters. -/
noncomputable def exampleDemo : ExampleDraws := ⟨fun i k => if i = k then 1 else 1 / 2, fun _ => 0⟩

/-- The means are 0 and 5, the correlation matrix is the unit matrix; a library whose rows are the state. -/
example : (∀ i, i < 2 → ∃ k, k < 2 ∧ exampleDemo.unit i k ≠ 1 / 2) ∧
    ∃ f, makeSample (G := List ℝ) ⟨fun s m _ _ n => (List.range n).map fun i => [m 0 + s.getD i 0, m 1], fun _ _ _ _ => 0, fun _ _ => true⟩
      (fun _ => exampleDemo) [7, 8] 2 (some 0) false 2 = .ok f ∧ f.columns = ["A", "B", "log_posterior"] ∧ f.get "A" = .ok [7, 8] := by
  refine ⟨fun i hi => ⟨i, hi, by simp [exampleDemo]⟩, ?_⟩
  obtain ⟨f, h1, -, h2, h3, -⟩ := C106_sample_partial (G := List ℝ)
    ⟨fun s m _ _ n => (List.range n).map fun i => [m 0 + s.getD i 0, m 1], fun _ _ _ _ => 0, fun _ _ => true⟩
    (fun _ => exampleDemo) [7, 8] 2 (by norm_num) (by norm_num) (some 0) false 2 (by norm_num) rfl (by simp)
  refine ⟨f, h1, by rw [h2]; decide, ?_⟩
  have := h3 0 (by norm_num)
  rw [show String.ofList [Char.ofNat (65 + 0)] = "A" by decide] at this
  rw [this]
  simp [List.range_succ]

/-- The same seed with two states of the global generator. -/
example : ∃ f f', makeSample (G := List ℝ)
      ⟨fun s m _ _ n => (List.range n).map fun i => [m 0 + s.getD i 0, m 1], fun _ _ _ _ => 0, fun _ _ => true⟩
      (fun _ => exampleDemo) [7, 8] 2 (some 0) false 2 = .ok f ∧
    makeSample (G := List ℝ)
      ⟨fun s m _ _ n => (List.range n).map fun i => [m 0 + s.getD i 0, m 1], fun _ _ _ _ => 0, fun _ _ => true⟩
      (fun _ => exampleDemo) [9, 8] 2 (some 0) false 2 = .ok f' ∧ f.get "A" ≠ f'.get "A" :=
  C106_violated_seed _ _ _ _ 2 (by norm_num) _ _ 2 (by norm_num) rfl (by simp [List.range_succ])

end CC
