import Verif.Props.Diagnostic
import Verif.Lemmas.Demo

/-! # C22: diagnostics of chains given by name -/

namespace CC
open Spec

/-- The chain that is meant by a chain or by a name. -/
def Spec.Means (parent : List (String × Chain ℝ)) (x : Chain ℝ ⊕ String) (c : Chain ℝ) : Prop :=
  x = .inl c ∨ ∃ n, x = .inr n ∧ (n, c) ∈ parent

theorem resolveChain_means {parent : List (String × Chain ℝ)} (hnd : (parent.map Prod.fst).Nodup) {x : Chain ℝ ⊕ String} {c : Chain ℝ}
    (h : Means parent x c) : resolveChain parent x = .ok c := by
  rcases h with rfl | ⟨n, rfl, hm⟩
  · rfl
  · simp only [resolveChain, lookup_eq_some_of_mem hnd hm]

theorem resolveChain_unknown {parent : List (String × Chain ℝ)} {n : String} (h : n ∉ parent.map Prod.fst) :
    resolveChain parent (.inr n) = .error .assertion := by
  have : parent.lookup n = none := by
    cases hl : parent.lookup n with
    | none => rfl
    | some c => exact absurd (List.mem_map_of_mem (lookup_mem hl)) h
  simp only [resolveChain, this]

theorem mapM_resolve {parent : List (String × Chain ℝ)} (hnd : (parent.map Prod.fst).Nodup) {xs : List (Chain ℝ ⊕ String)} {cs : List (Chain ℝ)}
    (h : List.Forall₂ (Means parent) xs cs) : xs.mapM (resolveChain parent) = .ok cs :=
  mapM_ok_iff.2 (h.imp fun _ _ h => resolveChain_means hnd h)

/-- **C22** (names). Names mean the chains registered under them, whatever else is in the list: both diagnostics give for a list with names what
they give for the list of chains that are meant, and for one name what they give for its chain. -/
theorem C22_names (spec : List ℝ → Flt ℝ) (normaltest : List (Flt ℝ) → Flt ℝ) (t first last t' : ℝ) (parent : List (String × Chain ℝ))
    (hnd : (parent.map Prod.fst).Nodup) :
    (∀ xs cs, List.Forall₂ (Means parent) xs cs →
      gelmanRubin parent (.list xs) t = gelmanRubin parent (.list (cs.map .inl)) t ∧
      geweke spec normaltest parent (.list xs) first last t' = geweke spec normaltest parent (.list (cs.map .inl)) first last t') ∧
    ∀ n c, (n, c) ∈ parent →
      gelmanRubin parent (.one (.inr n)) t = gelmanRubin parent (.one (.inl c)) t ∧
      geweke spec normaltest parent (.one (.inr n)) first last t' = geweke spec normaltest parent (.one (.inl c)) first last t' := by
  refine ⟨fun xs cs h => ?_, fun n c h => ?_⟩
  · have h1 := mapM_resolve hnd h
    have h2 : (cs.map Sum.inl).mapM (resolveChain parent) = .ok cs := by
      refine mapM_resolve hnd ?_
      rw [List.forall₂_map_left_iff, List.forall₂_same]
      exact fun c _ => Or.inl rfl
    simp only [gelmanRubin, geweke, sanitiseChains, h1, h2, and_self]
  · have h1 := resolveChain_means hnd (x := .inr n) (Or.inr ⟨n, rfl, h⟩)
    have h2 := resolveChain_means hnd (x := .inl c) (Or.inl rfl)
    simp only [gelmanRubin, geweke, sanitiseChains, h1, h2, and_self]

/-- **C22** (unknown names). A name under which no chain is registered raises AssertionError, alone or in a list. -/
theorem C22_unknown (spec : List ℝ → Flt ℝ) (normaltest : List (Flt ℝ) → Flt ℝ) (t first last t' : ℝ) (parent : List (String × Chain ℝ))
    (n : String) (h : n ∉ parent.map Prod.fst) (xs : List (Chain ℝ ⊕ String)) (hx : .inr n ∈ xs) :
    ∀ sel ∈ [ChainSel.list xs, .one (.inr n)], gelmanRubin parent sel t = .error .assertion ∧
      geweke spec normaltest parent sel first last t' = .error .assertion := by
  have hres : ∀ x, (∃ c, resolveChain parent x = .ok c) ∨ resolveChain parent x = .error .assertion := by
    intro x
    cases x with
    | inl c => exact Or.inl ⟨c, rfl⟩
    | inr m =>
      unfold resolveChain
      dsimp only
      cases parent.lookup m with
      | none => exact Or.inr rfl
      | some c => exact Or.inl ⟨c, rfl⟩
  have hl : xs.mapM (resolveChain parent) = .error .assertion := by
    induction xs with
    | nil => cases hx
    | cons x xs ih =>
      rw [List.mapM_cons]
      rcases hres x with ⟨c, hc⟩ | hc
      · rw [hc]
        rcases List.mem_cons.1 hx with rfl | hx
        · rw [resolveChain_unknown h] at hc
          cases hc
        · rw [ih hx]
          rfl
      · rw [hc]
        rfl
  intro sel hsel
  simp only [List.mem_cons, List.not_mem_nil, or_false] at hsel
  rcases hsel with rfl | rfl
  · simp only [gelmanRubin, geweke, sanitiseChains, hl]
    exact ⟨rfl, rfl⟩
  · simp only [gelmanRubin, geweke, sanitiseChains, resolveChain_unknown h]
    exact ⟨rfl, rfl⟩

/-- The hypotheses are met: one registered chain, a list with its name and with the chain itself, and a list with an unknown name. -/
example : ∃ (parent : List (String × Chain ℝ)) (c : Chain ℝ), (parent.map Prod.fst).Nodup ∧ ("c", c) ∈ parent ∧
    List.Forall₂ (Means parent) [.inr "c", .inl c] [c, c] ∧ "d" ∉ parent.map Prod.fst ∧ .inr "d" ∈ ([.inl c, .inr "d"] : List (Chain ℝ ⊕ String)) := by
  let fr : Frame ℝ := { index := [.int 0], cols := [("a", [1]), ("weight", [1])] }
  obtain ⟨c, -⟩ := plain_chain fr ⟨by simp [fr], by simp [fr]⟩ (by simp [fr]) (w := [1]) rfl (by simp) "c"
  exact ⟨[("c", c)], c, by simp, by simp, .cons (Or.inr ⟨"c", rfl, by simp⟩) (.cons (Or.inl rfl) .nil), by simp, by simp⟩

end CC
