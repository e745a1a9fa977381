import Verif.Props.Chain
import Verif.Props.Config
import Verif.Lemmas.Demo

/-! # C09: the parameters of all chains -/

namespace CC
open Spec

/-- **C09** (all parameters). `_all_columns` lists, once each, the parameters of the registered chains: the columns that are neither
the weight column nor the posterior column nor reserved, the colour column of a cloud included. -/
theorem C09_all_columns {K : Type} {h : Heap K} {s : Consumer K} (hv : s.Valid h) :
    (allColumns h s).Nodup ∧ ∀ n, n ∈ allColumns h s ↔
      ∃ e ∈ s.chains, ∃ c, h[e.2]? = some c ∧ n ∈ c.samples.columns ∧ n ≠ c.weightColumn ∧ n ≠ c.posteriorColumn ∧ ¬ Reserved n := by
  refine ⟨List.nodup_dedup _, fun n => ?_⟩
  unfold allColumns
  rw [List.mem_dedup, List.mem_flatMap]
  constructor
  · rintro ⟨p, hp, hn⟩
    obtain ⟨i, hi⟩ := List.mem_iff_getElem?.1 hp
    rw [copyChains_getElem? hv] at hi
    simp only [Option.bind_eq_some_iff, Option.map_eq_some_iff] at hi
    obtain ⟨e, he, c, hc, rfl⟩ := hi
    exact ⟨e, List.mem_of_getElem? he, c, hc, (C09_data_columns c).2.2 n |>.1 hn⟩
  · rintro ⟨e, he, c, hc, hn⟩
    obtain ⟨i, hi⟩ := List.mem_iff_getElem?.1 he
    refine ⟨(e.1, c), List.mem_iff_getElem?.2 ⟨i, ?_⟩, (C09_data_columns c).2.2 n |>.2 hn⟩
    rw [copyChains_getElem? hv, hi, Option.bind_some, hc]
    rfl

/-- One registered chain with one parameter. -/
example : ∃ (h : Heap ℚ) (s : Consumer ℚ), s.Valid h ∧ s.chains ≠ [] ∧ "a" ∈ allColumns h s := by
  obtain ⟨c, -, h1, h2, h3, -⟩ := plain_chain (K := ℚ) ⟨[.int 0], [("a", [1]), ("weight", [1])]⟩ ⟨by decide, by simp⟩ (by simp)
    (w := [1]) rfl (by simp) "c"
  refine ⟨[c], { chains := [("c", 0)] }, by simp [Consumer.Valid], by simp, ?_⟩
  refine ((C09_all_columns (by simp [Consumer.Valid])).2 "a").2 ⟨("c", 0), by simp, c, rfl, ?_, ?_, ?_, ?_⟩
  · rw [h1]; simp [Frame.columns]
  · rw [h2]; decide
  · rw [h3]; decide
  · unfold Reserved; decide

end CC
