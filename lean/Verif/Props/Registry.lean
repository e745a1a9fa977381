import Verif.Spec.Registry
import Verif.Lemmas.Make

/-! # C01, C02: the registry of chains -/

namespace CC

open Spec

theorem dictSet_new {α β : Type _} [DecidableEq α] {d : List (α × β)} {k : α} {v : β}
    (h : k ∉ d.map Prod.fst) : dictSet d k v = d ++ [(k, v)] := by
  simp only [dictSet, h, if_false]

/-- Effect of one call on the registry, in terms of its event. -/
theorem step_chains (w : World) (op : Op) :
    (step w op).1.cons.chains = match event w op with
      | .added n r => w.cons.chains ++ [(n, r)]
      | .removed n => w.cons.chains.filter (fun e => e.1 ≠ n)
      | .other => w.cons.chains := by
  cases op with
  | newChain a => simp only [step, event]; cases Chain.make a <;> rfl
  | mutate r c => rfl
  | add r =>
    simp only [step, event, Consumer.addChain]
    cases hr : w.heap[r]? with
    | none => rfl
    | some c =>
      by_cases hn : c.name ∈ w.cons.chains.map Prod.fst
      · simp only [hn, if_true]
      · simp only [hn, if_false, dictSet_new hn]
  | removeName n =>
    simp only [step, event, Consumer.removeName]
    by_cases hn : n ∈ w.cons.chains.map Prod.fst
    · simp only [hn, if_true, dictPop]
    · simp only [hn, if_false]
  | removeObj r =>
    simp only [step, event, Consumer.removeObj, Consumer.removeName]
    cases hr : w.heap[r]? with
    | none => rfl
    | some c =>
      by_cases hn : c.name ∈ w.cons.chains.map Prod.fst
      · simp only [hn, if_true, dictPop]
      · simp only [hn, if_false]
  | marker loc n col sz sty al kw =>
    simp only [step, event, Consumer.addMarker]
    cases hm : Chain.make (Consumer.markerArgs loc n col sz sty al kw) with
    | error e => rfl
    | ok c =>
      have hname : c.name = n := by rw [Chain.make_name hm]; rfl
      simp only [bind, Except.bind, Consumer.addChain]
      have : (w.heap ++ [c])[w.heap.length]? = some c := by simp
      simp only [this, hname]
      by_cases hn : n ∈ w.cons.chains.map Prod.fst
      · simp only [hn, if_true]
      · simp only [hn, if_false, dictSet_new hn, pure, Except.pure]
  | addTruth t => rfl
  | setOverride o => rfl
  | finalise => simp only [step, event]; cases (finalChains w.heap w.cons).1 <;> rfl

/-- A successful registration is under a name not yet present. -/
theorem event_added_fresh {w : World} {op : Op} {n : String} {r : Ref}
    (h : event w op = .added n r) : n ∉ w.cons.chains.map Prod.fst := by
  cases op with
  | add r' =>
    simp only [step, event, Consumer.addChain] at h
    cases hr : w.heap[r']? with
    | none => simp [hr] at h
    | some c =>
      by_cases hn : c.name ∈ w.cons.chains.map Prod.fst
      · simp [hr, hn] at h
      · simp only [hr, hn, if_false] at h; cases h; exact hn
  | marker loc m col sz sty al kw =>
    simp only [step, event, Consumer.addMarker] at h
    cases hm : Chain.make (Consumer.markerArgs loc m col sz sty al kw) with
    | error e => simp [hm, bind, Except.bind] at h
    | ok c =>
      have hname : c.name = m := by rw [Chain.make_name hm]; rfl
      simp only [hm, bind, Except.bind, Consumer.addChain] at h
      have : (w.heap ++ [c])[w.heap.length]? = some c := by simp
      simp only [this, hname] at h
      by_cases hn : m ∈ w.cons.chains.map Prod.fst
      · simp [hn] at h
      · simp only [hn, if_false, pure, Except.pure] at h; cases h; exact hn
  | newChain a => simp only [event] at h; split at h <;> simp at h
  | mutate r c => simp [event, step] at h
  | removeName n => simp only [event] at h; split at h <;> simp at h
  | removeObj r => simp only [event] at h; split at h <;> (try split at h) <;> simp at h
  | addTruth t => simp [event, step] at h
  | setOverride o => simp [event, step] at h
  | finalise => simp only [event] at h; split at h <;> simp at h

theorem live_snoc (l : List Event) (e : Event) (n : String) (r : Ref) :
    Live (l ++ [e]) n r ↔ e = .added n r ∨ (Live l n r ∧ e ≠ .removed n) := by
  constructor
  · rintro ⟨pre, post, h, hp⟩
    rcases List.eq_nil_or_concat post with rfl | ⟨post', x, rfl⟩
    · left
      have := congrArg List.getLast? h
      simpa using this
    · right
      rw [List.concat_eq_append] at h hp
      rw [← List.cons_append, ← List.append_assoc] at h
      obtain ⟨h1, h2⟩ := List.append_inj' h rfl
      simp only [List.cons.injEq, and_true] at h2
      subst h2
      simp only [List.mem_append, List.mem_singleton, not_or] at hp
      exact ⟨⟨pre, post', h1, hp.1⟩, fun he => hp.2 he.symm⟩
  · rintro (rfl | ⟨⟨pre, post, rfl, hp⟩, he⟩)
    · exact ⟨l, [], rfl, by simp⟩
    · refine ⟨pre, post ++ [e], by simp, ?_⟩
      simp only [List.mem_append, List.mem_singleton, not_or]
      exact ⟨hp, fun h => he h.symm⟩

theorem liveBefore_snoc_keep {l : List Event} {e : Event} {a b : String × Ref}
    (h : LiveBefore l a b) (ha : e ≠ .removed a.1) (hb : e ≠ .removed b.1) :
    LiveBefore (l ++ [e]) a b := by
  obtain ⟨pre, mid, post, rfl, h1, h2⟩ := h
  refine ⟨pre, mid, post ++ [e], by simp, ?_, ?_⟩
  · simp only [List.mem_append, List.mem_singleton, not_or] at h1 ⊢
    exact ⟨h1.1, h1.2, fun h => ha h.symm⟩
  · simp only [List.mem_append, List.mem_singleton, not_or]
    exact ⟨h2, fun h => hb h.symm⟩

theorem liveBefore_snoc_new {l : List Event} {a b : String × Ref} (h : Live l a.1 a.2) :
    LiveBefore (l ++ [.added b.1 b.2]) a b := by
  obtain ⟨pre, post, rfl, h1⟩ := h
  exact ⟨pre, post, [], by simp, by simpa using h1, by simp⟩

/-- The registry agrees with the event log. -/
structure Agrees (l : List Event) (s : Consumer ℝ) : Prop where
  live : ∀ n r, (n, r) ∈ s.chains ↔ Live l n r
  nodup : (s.chains.map Prod.fst).Nodup
  order : s.chains.Pairwise (LiveBefore l)

theorem agrees_step {l : List Event} {w : World} (h : Agrees l w.cons) (op : Op) :
    Agrees (l ++ [event w op]) (step w op).1.cons := by
  have hs := step_chains w op
  cases he : event w op with
  | added n r =>
    have hf := event_added_fresh he
    rw [he] at hs
    refine ⟨fun m q => ?_, ?_, ?_⟩
    · rw [hs, live_snoc, ← h.live]
      simp only [List.mem_append, List.mem_singleton, Prod.mk.injEq, Event.added.injEq, ne_eq,
        reduceCtorEq, not_false_eq_true, and_true]
      constructor
      · rintro (h | ⟨rfl, rfl⟩)
        · exact Or.inr h
        · exact Or.inl ⟨rfl, rfl⟩
      · rintro (⟨rfl, rfl⟩ | h)
        · exact Or.inr ⟨rfl, rfl⟩
        · exact Or.inl h
    · rw [hs, List.map_append, List.nodup_append]
      refine ⟨h.nodup, by simp, ?_⟩
      intro a ha b hb
      simp only [List.map_cons, List.map_nil, List.mem_singleton] at hb
      rintro rfl
      exact hf (hb ▸ ha)
    · rw [hs, List.pairwise_append]
      refine ⟨?_, by simp, ?_⟩
      · exact h.order.imp fun hab => liveBefore_snoc_keep hab (by simp) (by simp)
      · intro a ha b hb
        simp only [List.mem_singleton] at hb
        subst hb
        exact liveBefore_snoc_new (b := (n, r)) ((h.live a.1 a.2).1 ha)
  | removed n =>
    rw [he] at hs
    refine ⟨fun m q => ?_, ?_, ?_⟩
    · rw [hs, live_snoc, ← h.live]
      simp only [List.mem_filter, reduceCtorEq, false_or, ne_eq, Event.removed.injEq,
        decide_eq_true_eq]
      exact ⟨fun ⟨h1, h2⟩ => ⟨h1, fun h => h2 h.symm⟩, fun ⟨h1, h2⟩ => ⟨h1, fun h => h2 h.symm⟩⟩
    · rw [hs]
      exact h.nodup.sublist (List.Sublist.map _ List.filter_sublist)
    · rw [hs]
      refine List.Pairwise.imp_of_mem ?_ (h.order.sublist List.filter_sublist)
      intro a b ha hb hab
      simp only [List.mem_filter, decide_eq_true_eq, ne_eq] at ha hb
      refine liveBefore_snoc_keep hab ?_ ?_
      · intro h; cases h; exact ha.2 rfl
      · intro h; cases h; exact hb.2 rfl
  | other =>
    rw [he] at hs
    refine ⟨fun m q => ?_, ?_, ?_⟩
    · rw [hs, live_snoc, ← h.live]; simp
    · rw [hs]; exact h.nodup
    · rw [hs]; exact h.order.imp fun hab => liveBefore_snoc_keep hab (by simp) (by simp)

theorem agrees_run {l : List Event} {w : World} (h : Agrees l w.cons) (ops : List Op) :
    Agrees (l ++ log w ops) (run w ops).cons := by
  induction ops generalizing l w with
  | nil => simpa [log, run] using h
  | cons op ops ih =>
    have := ih (agrees_step h op)
    simpa [log, run, List.append_assoc] using this

/-- **C01.** After every history of calls starting from an empty `ChainConsumer`, with any chain
objects in existence: a name is registered with an object iff some successful call added that
object under that name and no later successful call removed the name; no name occurs twice; and
chains are listed in the order in which they were (last) added. -/
theorem C01_registry_is_ordered_map (h : Heap ℝ) (ops : List Op) :
    let w0 : World := { heap := h, cons := {} }
    let s := (run w0 ops).cons
    (∀ n r, (n, r) ∈ s.chains ↔ Live (log w0 ops) n r) ∧
    s.getNames.Nodup ∧
    s.chains.Pairwise (LiveBefore (log w0 ops)) := by
  have h0 : Agrees [] ({} : Consumer ℝ) :=
    ⟨by simp [Live], by simp, by simp⟩
  have := agrees_run (w := { heap := h, cons := {} }) h0 ops
  exact ⟨this.live, this.nodup, this.order⟩

theorem lookup_eq_some_iff_of_nodup {α β : Type _} [DecidableEq α] {d : List (α × β)}
    (hd : (d.map Prod.fst).Nodup) (k : α) (v : β) : d.lookup k = some v ↔ (k, v) ∈ d := by
  induction d with
  | nil => simp
  | cons e d ih =>
    obtain ⟨a, b⟩ := e
    simp only [List.map_cons, List.nodup_cons] at hd
    by_cases hk : k = a
    · subst hk
      simp only [List.lookup_cons, BEq.rfl, Option.some.injEq, List.mem_cons, Prod.mk.injEq,
        true_and]
      constructor
      · rintro rfl; exact Or.inl rfl
      · rintro (rfl | hm)
        · rfl
        · exact absurd (List.mem_map_of_mem (f := Prod.fst) hm) hd.1
    · have : (k == a) = false := by simpa using hk
      simp only [List.lookup_cons, this, List.mem_cons, Prod.mk.injEq, hk, false_and, false_or]
      exact ih hd.2

theorem lookup_eq_none_iff {α β : Type _} [DecidableEq α] {d : List (α × β)} (k : α) :
    d.lookup k = none ↔ k ∉ d.map Prod.fst := by
  induction d with
  | nil => simp
  | cons e d ih =>
    obtain ⟨a, b⟩ := e
    by_cases hk : k = a
    · subst hk; simp
    · have : (k == a) = false := by simpa using hk
      simp [List.lookup_cons, this, ih, hk]

/-- **C01** (retrieval). After every history, `get_chain(n)` returns an object iff that object is
registered under `n` according to the log, and raises iff `n` is not registered; `get_names` lists
exactly the registered names. -/
theorem C01_get_chain (h : Heap ℝ) (ops : List Op) :
    let w0 : World := { heap := h, cons := {} }
    let s := (run w0 ops).cons
    (∀ n r, s.getChain n = .ok r ↔ Live (log w0 ops) n r) ∧
    (∀ n, s.getChain n = .error .assertion ↔ ∀ r, ¬ Live (log w0 ops) n r) ∧
    (∀ n, n ∈ s.getNames ↔ ∃ r, Live (log w0 ops) n r) := by
  obtain ⟨h1, h2, -⟩ := C01_registry_is_ordered_map h ops
  intro w0 s
  have hget : ∀ n r, s.getChain n = .ok r ↔ Live (log w0 ops) n r := by
    intro n r
    rw [← h1, ← lookup_eq_some_iff_of_nodup h2]
    simp only [Consumer.getChain]
    cases List.lookup n s.chains <;> simp_all
  have hmem : ∀ n, n ∈ s.getNames ↔ ∃ r, Live (log w0 ops) n r := by
    intro n
    simp only [Consumer.getNames, List.mem_map, Prod.exists]
    constructor
    · rintro ⟨a, r, hm, rfl⟩; exact ⟨r, (h1 _ _).1 hm⟩
    · rintro ⟨r, hr⟩; exact ⟨n, r, (h1 _ _).2 hr, rfl⟩
  refine ⟨hget, ?_, hmem⟩
  intro n
  have : (∀ r, ¬ Live (log w0 ops) n r) ↔ n ∉ s.getNames := by rw [hmem]; simp
  rw [this]
  simp only [Consumer.getNames, ← lookup_eq_none_iff (d := s.chains) n, Consumer.getChain]
  cases List.lookup n s.chains <;> simp

end CC
