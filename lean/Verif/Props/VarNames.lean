import Verif.Model.Chain
import Verif.Lemmas.Except
import Mathlib.Data.List.Dedup

/-! # C16: selecting variables by name in `from_numpyro` / `from_arviz` -/

namespace CC

theorem startsTilde_iff (s : String) : startsTilde s = true ↔ ∃ t, s = "~" ++ t := by
  simp only [startsTilde, decide_eq_true_eq]
  constructor
  · intro h
    cases hs : s.toList with
    | nil => simp [hs] at h
    | cons c cs =>
      simp only [hs, List.head?_cons, Option.some.injEq] at h
      subst h
      refine ⟨String.ofList cs, ?_⟩
      apply String.toList_injective
      simp [hs]
  · rintro ⟨t, rfl⟩
    simp

theorem dropFirst_tilde (t : String) : dropFirst ("~" ++ t) = t := by
  apply String.toList_injective
  simp [dropFirst]

theorem dedup_bool {l : List Bool} {b : Bool} (hne : l ≠ []) (h : ∀ x ∈ l, x = b) :
    l.dedup = [b] := by
  induction l with
  | nil => exact absurd rfl hne
  | cons a l ih =>
    have ha := h a List.mem_cons_self
    subst ha
    by_cases hl : l = []
    · subst hl; simp
    · rw [List.dedup_cons_of_mem]
      · exact ih hl fun x hx => h x (List.mem_cons_of_mem _ hx)
      · cases l with
        | nil => exact absurd rfl hl
        | cons y ys =>
          rw [← h y (by simp)]
          simp

/-- **C16, partial.** `vars` are the sampler's variables in its order. No selection keeps all; a
nonempty list of plain names keeps exactly the variables named; a nonempty list of `~names` keeps
exactly the variables not named (both in the sampler's order); a mixture is rejected with
ValueError. Missing: the empty list, which the documentation says keeps all
(`C16_violated_empty`). -/
theorem C16_variable_selection_partial (vars : List String) :
    filterVarNames none vars = .ok vars ∧
    (∀ ns, ns ≠ [] → (∀ n ∈ ns, ∀ t, n ≠ "~" ++ t) →
      filterVarNames (some ns) vars = .ok (vars.filter fun v => v ∈ ns)) ∧
    (∀ ns, ns ≠ [] → (∀ n ∈ ns, ∃ t, n = "~" ++ t) →
      filterVarNames (some ns) vars = .ok (vars.filter fun v => ("~" ++ v) ∉ ns)) ∧
    (∀ ns, (∃ n ∈ ns, ∃ t, n = "~" ++ t) → (∃ n ∈ ns, ∀ t, n ≠ "~" ++ t) →
      filterVarNames (some ns) vars = .error .value) := by
  have hfalse : ∀ n : String, (∀ t, n ≠ "~" ++ t) → startsTilde n = false := by
    intro n hn
    rw [Bool.eq_false_iff, ne_eq, startsTilde_iff]
    rintro ⟨t, ht⟩
    exact hn t ht
  refine ⟨rfl, ?_, ?_, ?_⟩
  · intro ns hne h
    have hd : (ns.map startsTilde).dedup = [false] := dedup_bool (by simpa using hne) (by
      intro x hx
      obtain ⟨n, hn, rfl⟩ := List.mem_map.1 hx
      exact hfalse n (h n hn))
    simp [filterVarNames, hd]
  · intro ns hne h
    have hd : (ns.map startsTilde).dedup = [true] := dedup_bool (by simpa using hne) (by
      intro x hx
      obtain ⟨n, hn, rfl⟩ := List.mem_map.1 hx
      exact (startsTilde_iff n).2 (h n hn))
    simp only [filterVarNames, hd]
    rw [if_neg (by simp), if_pos (by simp)]
    congr 1
    apply List.filter_congr
    intro v _
    rw [decide_eq_decide]
    apply not_congr
    rw [List.mem_map]
    constructor
    · rintro ⟨n, hn, rfl⟩
      obtain ⟨t, rfl⟩ := h n hn
      rwa [dropFirst_tilde]
    · intro hv
      exact ⟨_, hv, dropFirst_tilde v⟩
  · rintro ns ⟨n, hn, hn'⟩ ⟨m, hm, hm'⟩
    have h1 : true ∈ (ns.map startsTilde).dedup :=
      List.mem_dedup.2 (List.mem_map.2 ⟨n, hn, (startsTilde_iff n).2 hn'⟩)
    have h2 : false ∈ (ns.map startsTilde).dedup :=
      List.mem_dedup.2 (List.mem_map.2 ⟨m, hm, hfalse m hm'⟩)
    have h3 : (ns.map startsTilde).dedup.length ≠ 1 := by
      intro hl
      obtain ⟨b, hb⟩ := List.length_eq_one_iff.1 hl
      rw [hb, List.mem_singleton] at h1 h2
      rw [← h1] at h2
      cases h2
    simp [filterVarNames, h3]

/-- **C16, violated.** The empty list is documented to keep everything but is always rejected. -/
theorem C16_violated_empty (vars : List String) :
    filterVarNames (some []) vars = .error .value := by
  simp [filterVarNames]

/-- **C16** (samples). The table built by `from_numpyro` consists of exactly the sampler's variables
that the selection keeps, in the sampler's order, with their samples, one row per draw. It is built
exactly when the selection is legal and the kept variables have equally many draws. -/
theorem C16_numpyro_table {K : Type} (sel : Option (List String))
    (samples : List (String × List (Flt K))) (f : RawFrame K) :
    numpyroFrame sel samples = .ok f ↔
      ∃ keep n, filterVarNames sel (samples.map Prod.fst) = .ok keep ∧
        (∀ s ∈ samples, s.1 ∈ keep → s.2.length = n) ∧
        ((∀ s ∈ samples, s.1 ∉ keep) → n = 0) ∧
        f.index = (List.range n).map (fun i => Label.int i) ∧
        f.cols = (samples.filter fun s => s.1 ∈ keep).map fun s => (ColLabel.str s.1, s.2) := by
  simp only [numpyroFrame, bind_ok_iff, ensure_ok_iff, pure_ok_iff]
  constructor
  · rintro ⟨keep, hk, -, hl, rfl⟩
    refine ⟨keep, _, hk, ?_, ?_, rfl, rfl⟩
    · intro s hs hsk
      have := List.all_eq_true.1 hl s (List.mem_filter.2 ⟨hs, by simpa using hsk⟩)
      simpa using this
    · intro hnone
      have : (samples.filter fun s => decide (s.1 ∈ keep)) = [] := by
        rw [List.filter_eq_nil_iff]
        intro s hs
        simpa using hnone s hs
      rw [this]; rfl
  · rintro ⟨keep, n, hk, hl, h0, hi, hc⟩
    have hn : rowCount (samples.filter fun s => decide (s.1 ∈ keep)) = n := by
      cases hf : samples.filter fun s => decide (s.1 ∈ keep) with
      | nil =>
        rw [List.filter_eq_nil_iff] at hf
        exact (h0 fun s hs => by simpa using hf s hs).symm
      | cons c cs =>
        have : c ∈ samples.filter fun s => decide (s.1 ∈ keep) := by rw [hf]; simp
        rw [List.mem_filter] at this
        exact hl c this.1 (by simpa using this.2)
    refine ⟨keep, hk, ⟨⟩, ?_, ?_⟩
    · rw [hn, List.all_eq_true]
      intro s hs
      rw [List.mem_filter] at hs
      simpa using hl s hs.1 (by simpa using hs.2)
    · rw [hn]
      obtain ⟨fi, fc⟩ := f
      simp only at hi hc
      rw [hi, hc]

example : filterVarNames (some ["b", "a", "zz"]) ["a", "b", "c"] = .ok ["a", "b"] ∧
    filterVarNames (some ["~b"]) ["a", "b", "c"] = .ok ["a", "c"] ∧
    filterVarNames (some ["~b", "a"]) ["a", "b", "c"] = .error .value := by
  decide +kernel

end CC
