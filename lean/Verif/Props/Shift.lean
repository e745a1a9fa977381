import Verif.Lemmas.Shift

/-!
# C08: `shift_params`

Full statement: with `shift_params=True` every data column of the constructed chain has weighted
mean zero (under the chain's weights) and the weights are still positive. The code violates it: the
shift loop also runs over the weight column.
-/

namespace CC
open Spec
variable {K : Type} [Field K] [LinearOrder K] [IsStrictOrderedRing K]

/-- The table before the shift, its weights, and the table after it. -/
theorem make_shift {a : Args K} {c : Chain K} (hwf : a.samples.WF)
    (hshift : setting a .shiftParams = true) (h : Chain.make a = .ok c) :
    ∃ raw f w, addWeights a.samples a.weightColumn = .ok raw ∧ checkColumns raw = .ok f ∧ f.WF ∧
      f.index = a.samples.index ∧ f.index ≠ [] ∧
      f.get a.weightColumn = .ok w ∧ w.length = f.index.length ∧ (∀ x ∈ w, 0 < x) ∧
      f.columns.foldlM (shiftColumn a.weightColumn) f = .ok c.samples ∧
      c.weightColumn = a.weightColumn := by
  obtain ⟨col, raw, f0, f, h1, h2, h3, h4, h5, h6, h7, h8, h9, h10, rfl⟩ := Chain.make_ok_iff.1 h
  have hs : (((Cfg.default K).apply a.config).set ⟨.color, col⟩) .shiftParams = true := by
    rw [set_color_ne (by simp)]; exact hshift
  rw [hs, shiftIf, if_pos rfl] at h6
  obtain ⟨hf1, hf2, w, hw1, hw2, hw3⟩ := make_frame hwf h4 h5
  refine ⟨raw, f0, w, h4, h5, hf1, hf2, ?_, hw1, hw2, hw3, h6, rfl⟩
  simp only [RawFrame.empty, Bool.or_eq_false_iff, List.isEmpty_eq_false_iff] at h3
  simpa [hf2] using h3.1

/-- **C08, partial.** With `shift_params=True`, every column that stands before the weight column in
the finished table is shifted by a constant, and the shifted column has mean zero under the
weights the user gave (ones if none). Missing: columns after the weight column, and positivity of
the weights — both are false, see `C08_weights_destroyed` and `C08_violated`. -/
theorem C08_shift_partial (a : Args K) (c : Chain K) (hwf : a.samples.WF)
    (hshift : setting a .shiftParams = true) (h : Chain.make a = .ok c)
    (pre post : List String) (hcols : c.samples.columns = pre ++ a.weightColumn :: post)
    (q : String) (hq : q ∈ pre) :
    ∃ (x w : List K) (m : K),
      (ColLabel.str q, x.map Flt.fin) ∈ a.samples.cols ∧
      ((ColLabel.str a.weightColumn, w.map Flt.fin) ∈ a.samples.cols ∨
        (ColLabel.str a.weightColumn ∉ a.samples.cols.map Prod.fst ∧ ∀ y ∈ w, y = 1)) ∧
      c.samples.get q = .ok (x.map (· - m)) ∧
      w.length = x.length ∧ dot (x.map (· - m)) w = 0 := by
  obtain ⟨raw, f, w, h4, h5, hf, hidx, hne, hw1, hw2, hw3, hfold, -⟩ := make_shift hwf hshift h
  have hc := (shift_fold_other hfold).1
  rw [hc] at hcols
  have hnd : f.columns.Nodup := hf.1
  obtain ⟨p1, p2, rfl⟩ := List.append_of_mem hq
  rw [hcols] at hnd
  have hnd' := hnd
  rw [List.append_assoc, List.cons_append] at hnd'
  have hqpre : q ∉ p1 ∧ q ∉ p2 ++ a.weightColumn :: post := by
    rw [List.nodup_append] at hnd'
    refine ⟨fun hm => hnd'.2.2 q hm q List.mem_cons_self rfl, ?_⟩
    exact (List.nodup_cons.1 hnd'.2.1).1
  have hwpre : a.weightColumn ∉ p1 := by
    rw [List.nodup_append] at hnd'
    intro hm
    exact hnd'.2.2 _ hm _ (by simp) rfl
  rw [hcols, List.append_assoc, List.cons_append] at hfold
  obtain ⟨w', x, m, e1, e2, e3, e4⟩ := shift_fold_before hfold hqpre hwpre
  rw [hw1] at e1
  cases e1
  have hxlen : x.length = w.length := by rw [hw2]; exact hf.2 _ (get_mem e2)
  have hraw := checkColumns_ok_iff.1 h5
  have hqw : q ≠ a.weightColumn := fun he => hqpre.2 (by simp [he])
  have hmem : ∀ p v, (p, v) ∈ f.cols → (ColLabel.str p, v.map Flt.fin) ∈ raw.cols := by
    intro p v hv
    rw [hraw]
    exact List.mem_map.2 ⟨_, hv, rfl⟩
  refine ⟨x, w, m, ?_, ?_, e4, hxlen.symm, ?_⟩
  · have := hmem q x (get_mem e2)
    rcases (addWeights_ok_iff hwf).1 h4 with ⟨-, hr, -⟩ | ⟨-, -, hr⟩
    · rw [← hr]; exact this
    · rw [hr] at this
      simp only [List.mem_append, List.mem_singleton, Prod.mk.injEq, ColLabel.str.injEq] at this
      rcases this with h | ⟨h, -⟩
      · exact h
      · exact absurd h hqw
  · have := hmem _ w (get_mem hw1)
    rcases (addWeights_ok_iff hwf).1 h4 with ⟨-, hr, -⟩ | ⟨hn, -, hr⟩
    · left; rw [← hr]; exact this
    · right
      refine ⟨hn, fun y hy => ?_⟩
      rw [hr] at this
      simp only [List.mem_append, List.mem_singleton, Prod.mk.injEq, true_and] at this
      rcases this with h | h
      · exact absurd (List.mem_map.2 ⟨_, h, rfl⟩) hn
      · have hy' : Flt.fin y ∈ w.map Flt.fin := List.mem_map.2 ⟨y, hy, rfl⟩
        rw [h] at hy'
        have := List.eq_of_mem_replicate hy'
        simpa using this
  · obtain ⟨h0, rfl⟩ := average_ok_iff.1 e3
    rw [dot_sub_const hxlen, div_mul_cancel₀ _ h0, sub_self]

/-- **C08, violated** (for every input). Every chain constructed with `shift_params=True` ends up
with a weight that is not positive. -/
theorem C08_weights_destroyed (a : Args K) (c : Chain K) (hwf : a.samples.WF)
    (hshift : setting a .shiftParams = true) (h : Chain.make a = .ok c) :
    ∃ w, c.weights = .ok w ∧ ∃ x ∈ w, x ≤ 0 := by
  obtain ⟨raw, f, w, h4, h5, hf, hidx, hne, hw1, hw2, hw3, hfold, hwc⟩ := make_shift hwf hshift h
  obtain ⟨pre, post, hcols⟩ := List.append_of_mem (mem_columns_of_get hw1)
  have hnd : f.columns.Nodup := hf.1
  rw [hcols, List.nodup_append] at hnd
  have hpre : a.weightColumn ∉ pre := fun hm => hnd.2.2 _ hm _ List.mem_cons_self rfl
  rw [hcols] at hfold
  obtain ⟨w', x, m, e1, e2, e3, e4⟩ :=
    shift_fold_before hfold ⟨hpre, (List.nodup_cons.1 hnd.2.1).1⟩ hpre
  rw [hw1] at e1 e2
  cases e1; cases e2
  have hwne : w ≠ [] := by
    intro h0
    rw [h0] at hw2
    exact hne (List.length_eq_zero_iff.1 hw2.symm)
  obtain ⟨x, hx, hx0⟩ := exists_le_self_average hw3 hwne e3
  refine ⟨w.map (· - m), by rw [Chain.weights, hwc]; exact e4, x - m, ?_, hx0⟩
  exact List.mem_map.2 ⟨x, hx, rfl⟩

/-- A table with weights first: the column after them is not recentred either. -/
def shiftWitness : Args ℚ :=
  { samples := { index := [.int 0, .int 1], cols := [(.str "weight", [.fin 1, .fin 2]),
      (.str "a", [.fin 0, .fin 1])] }
    name := "w", config := [⟨.shiftParams, true⟩] }

/-- **C08, violated** (concrete). The constructor accepts this table, and afterwards the data column
has weighted mean `5/3` under the user's weights `[1, 2]`. -/
theorem C08_violated : ∃ c, Chain.make shiftWitness = .ok c ∧ shiftWitness.samples.WF ∧
    c.samples.get "a" = .ok [1, 2] ∧ average [1, 2] [1, 2] = .ok (5 / 3 : ℚ) ∧
    c.weights = .ok [-2/3, 1/3] := by
  refine ⟨_, Chain.make_ok_iff.2 ⟨none, shiftWitness.samples,
    { index := [.int 0, .int 1], cols := [("weight", [1, 2]), ("a", [0, 1])] },
    { index := [.int 0, .int 1], cols := [("weight", [-2/3, 1/3]), ("a", [1, 2])] },
    by decide +kernel, by decide +kernel, rfl, by decide +kernel, by decide +kernel,
    by decide +kernel, by decide +kernel, by decide +kernel, by decide +kernel, by decide +kernel,
    rfl⟩, ⟨by decide, by simp [shiftWitness]⟩, ?_, ?_, ?_⟩
  all_goals decide +kernel

/-- A table without weights. -/
def shiftDemo : Args ℚ :=
  { samples := { index := [.int 0, .int 1], cols := [(.str "a", [.fin 0, .fin 1])] }
    name := "n", config := [⟨.shiftParams, true⟩] }

/-- The hypotheses of `C08_shift_partial` and `C08_weights_destroyed` are met by a chain without
weights; all its weights become zero. -/
example : ∃ c : Chain ℚ, shiftDemo.samples.WF ∧ setting shiftDemo .shiftParams = true ∧
    Chain.make shiftDemo = .ok c ∧ c.samples.columns = ["a"] ++ shiftDemo.weightColumn :: [] ∧
    c.weights = .ok [0, 0] := by
  refine ⟨_, ⟨by simp [shiftDemo], by simp [shiftDemo]⟩, by decide +kernel,
    Chain.make_ok_iff.2 ⟨none,
      ⟨[.int 0, .int 1], [(.str "a", [.fin 0, .fin 1]), (.str "weight", [.fin 1, .fin 1])]⟩,
    { index := [.int 0, .int 1], cols := [("a", [0, 1]), ("weight", [1, 1])] },
    { index := [.int 0, .int 1], cols := [("a", [-1/2, 1/2]), ("weight", [0, 0])] },
    by decide +kernel, by decide +kernel, rfl, by decide +kernel, by decide +kernel,
    by decide +kernel, by decide +kernel, by decide +kernel, by decide +kernel, by decide +kernel,
    rfl⟩, rfl, by decide +kernel⟩

end CC
