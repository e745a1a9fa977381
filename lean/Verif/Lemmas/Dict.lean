import Verif.Spec.Order
import Verif.Lemmas.Except
import Mathlib.Data.List.Induction
import Mathlib.Data.List.Nodup

/-! # Lemmas: dictionaries built by assignment -/

namespace CC
open Spec
variable {α β : Type} [DecidableEq α]

/-- Append unless present. -/
def addNew (l : List α) (a : α) : List α := if a ∈ l then l else l ++ [a]

theorem firstOrder_add {src out : List α} (h : FirstOrder src out) (a : α) :
    FirstOrder (src ++ [a]) (addNew out a) := by
  have hidx : ∀ x ∈ src, (src ++ [a]).idxOf x = src.idxOf x := fun x hx => List.idxOf_append_of_mem hx
  have hpair : out.Pairwise fun x y => (src ++ [a]).idxOf x < (src ++ [a]).idxOf y :=
    h.order.imp_of_mem fun {x y} hx hy hxy => by
      rw [hidx x ((h.mem x).1 hx), hidx y ((h.mem y).1 hy)]; exact hxy
  unfold addNew
  by_cases ha : a ∈ out
  · rw [if_pos ha]
    refine ⟨h.nodup, fun x => ?_, hpair⟩
    rw [h.mem, List.mem_append, List.mem_singleton]
    exact ⟨Or.inl, fun hx => hx.elim id fun e => e ▸ (h.mem a).1 ha⟩
  · rw [if_neg ha]
    have ha' : a ∉ src := fun hc => ha ((h.mem a).2 hc)
    refine ⟨?_, fun x => ?_, ?_⟩
    · rw [List.nodup_append]
      refine ⟨h.nodup, List.nodup_singleton _, fun x hx y hy => ?_⟩
      rw [List.mem_singleton.1 hy]
      rintro rfl
      exact ha hx
    · rw [List.mem_append, List.mem_append, h.mem]
    · rw [List.pairwise_append]
      refine ⟨hpair, List.pairwise_singleton _ _, fun x hx y hy => ?_⟩
      rw [List.mem_singleton.1 hy, hidx x ((h.mem x).1 hx), List.idxOf_append_of_notMem ha']
      have := List.idxOf_lt_length_of_mem ((h.mem x).1 hx)
      omega

theorem firstOrder_foldl {src out : List α} (h : FirstOrder src out) (l : List α) :
    FirstOrder (src ++ l) (l.foldl addNew out) := by
  induction l generalizing src out with
  | nil => simpa using h
  | cons a l ih =>
    have := ih (firstOrder_add h a)
    simpa using this

theorem firstOrder_nil : FirstOrder ([] : List α) [] := ⟨List.nodup_nil, fun _ => Iff.rfl, .nil⟩

theorem dictSet_keys (d : List (α × β)) (k : α) (v : β) :
    (dictSet d k v).map Prod.fst = addNew (d.map Prod.fst) k := by
  unfold dictSet addNew
  by_cases h : k ∈ d.map Prod.fst
  · rw [if_pos h, if_pos h, List.map_map]
    apply List.map_congr_left
    intro e _
    by_cases he : e.1 = k <;> simp [he]
  · rw [if_neg h, if_neg h]
    simp

theorem dictMerge_keys (d e : List (α × β)) :
    (dictMerge d e).map Prod.fst = (e.map Prod.fst).foldl addNew (d.map Prod.fst) := by
  unfold dictMerge
  induction e generalizing d with
  | nil => rfl
  | cons kv e ih =>
    simp only [List.foldl_cons, List.map_cons]
    rw [ih, dictSet_keys]

theorem mem_dictSet {d : List (α × β)} {k : α} {v : β} {p : α × β} (h : p ∈ dictSet d k v) :
    p = (k, v) ∨ (p ∈ d ∧ p.1 ≠ k) := by
  unfold dictSet at h
  by_cases hk : k ∈ d.map Prod.fst
  · rw [if_pos hk] at h
    obtain ⟨e, he, rfl⟩ := List.mem_map.1 h
    by_cases hek : e.1 = k
    · simp [hek]
    · right
      simp only [hek, if_false]
      exact ⟨he, hek⟩
  · rw [if_neg hk, List.mem_append, List.mem_singleton] at h
    rcases h with h | h
    · refine Or.inr ⟨h, fun hc => hk ?_⟩
      exact List.mem_map.2 ⟨p, h, hc⟩
    · exact Or.inl h

theorem dictMerge_append (d e f : List (α × β)) : dictMerge d (e ++ f) = dictMerge (dictMerge d e) f := by
  simp [dictMerge]

/-- A dictionary filled by assignments holds the last value assigned to each key, keys in order of
first assignment. -/
theorem dictMerge_nil_spec (kvs : List (α × β)) :
    FirstOrder (kvs.map Prod.fst) ((dictMerge [] kvs).map Prod.fst) ∧
      ∀ p ∈ dictMerge [] kvs, LastWith kvs p.1 p.2 := by
  constructor
  · rw [dictMerge_keys]
    have := firstOrder_foldl (firstOrder_nil (α := α)) (kvs.map Prod.fst)
    simpa using this
  · induction kvs using List.reverseRecOn with
    | nil => intro p hp; cases hp
    | append_singleton kvs kv ih =>
      intro p hp
      rw [dictMerge_append] at hp
      rcases mem_dictSet hp with rfl | ⟨h1, h2⟩
      · exact ⟨kvs, [], rfl, by simp⟩
      · obtain ⟨pre, post, h3, h4⟩ := ih p h1
        refine ⟨pre, post ++ [kv], by rw [h3]; simp, ?_⟩
        rw [List.map_append, List.mem_append]
        rintro (h | h)
        · exact h4 h
        · exact h2 (by simpa using h)

end CC
