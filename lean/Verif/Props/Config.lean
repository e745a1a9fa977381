import Verif.Lemmas.Final
import Verif.Lemmas.Make
import Verif.Props.Registry

/-! # C02 (atomicity), C03–C06: resolution of chain settings -/

namespace CC

/-- Every registered reference points to an existing chain object. Holds in every reachable world
(`valid_run`). -/
def Consumer.Valid {K : Type} (h : Heap K) (s : Consumer K) : Prop := ∀ e ∈ s.chains, e.2 < h.length

theorem finaliseLoop_length (n : Nat) (ov : Option (Config ℝ)) (refs : List Ref) (u : Nat)
    (h : Heap ℝ) : (finaliseLoop n ov refs u h).2.length = h.length := by
  induction refs generalizing u h with
  | nil => rfl
  | cons r refs ih =>
    rw [finaliseLoop]
    split
    · rfl
    · split
      · rfl
      · rw [ih]; simp

/-- **C04** (objects). Resolving the final chains never changes an existing chain object, whether
or not it raises: the old heap is a prefix of the new one. -/
theorem C04_final_chains_do_not_mutate (h : Heap ℝ) (s : Consumer ℝ) :
    h <+: (finalChains h s).2 := by
  rw [List.prefix_iff_eq_take]
  simp only [finalChains]
  rw [finaliseLoop_take]
  · simp
  · intro r hr
    simp only [List.mem_map, List.mem_range] at hr
    obtain ⟨i, _, rfl⟩ := hr
    omega

theorem step_heap_length (w : World) (op : Op) : w.heap.length ≤ (step w op).1.heap.length := by
  cases op with
  | newChain a => simp only [step]; split <;> simp
  | mutate r c => simp [step]
  | add r => simp only [step]; split <;> simp
  | removeName n => simp only [step]; split <;> simp
  | removeObj r => simp only [step]; split <;> simp
  | marker loc n col sz sty al kw =>
    simp only [step, Consumer.addMarker]
    cases hm : Chain.make (Consumer.markerArgs loc n col sz sty al kw) with
    | error e => simp [bind, Except.bind]
    | ok c =>
      simp only [bind, Except.bind]
      cases Consumer.addChain (w.heap ++ [c]) w.cons w.heap.length <;> simp [pure, Except.pure]
  | addTruth t => simp [step]
  | setOverride o => simp [step]
  | finalise =>
    simp only [step]
    exact (C04_final_chains_do_not_mutate w.heap w.cons).length_le

theorem event_added_valid {w : World} {op : Op} {n : String} {r : Ref}
    (h : Spec.event w op = .added n r) : r < (step w op).1.heap.length := by
  cases op with
  | add r' =>
    simp only [step, Spec.event, Consumer.addChain] at h ⊢
    cases hr : w.heap[r']? with
    | none => simp [hr] at h
    | some c =>
      have hlt : r' < w.heap.length := by
        rcases Nat.lt_or_ge r' w.heap.length with hl | hl
        · exact hl
        · rw [List.getElem?_eq_none hl] at hr; cases hr
      by_cases hn : c.name ∈ w.cons.chains.map Prod.fst
      · simp [hr, hn] at h
      · simp only [hr, hn, if_false] at h ⊢; cases h; exact hlt
  | marker loc m col sz sty al kw =>
    simp only [step, Spec.event, Consumer.addMarker] at h ⊢
    cases hm : Chain.make (Consumer.markerArgs loc m col sz sty al kw) with
    | error e => simp [hm, bind, Except.bind] at h
    | ok c =>
      simp only [hm, bind, Except.bind] at h ⊢
      cases ha : Consumer.addChain (w.heap ++ [c]) w.cons w.heap.length with
      | error e => simp [ha] at h
      | ok s => simp only [ha, pure, Except.pure] at h ⊢; cases h; simp
  | newChain a => simp only [Spec.event] at h; split at h <;> simp at h
  | mutate r c => simp [Spec.event, step] at h
  | removeName n => simp only [Spec.event] at h; split at h <;> simp at h
  | removeObj r => simp only [Spec.event] at h; split at h <;> (try split at h) <;> simp at h
  | addTruth t => simp [Spec.event, step] at h
  | setOverride o => simp [Spec.event, step] at h
  | finalise => simp only [Spec.event] at h; split at h <;> simp at h

theorem valid_step {w : World} (hv : w.cons.Valid w.heap) (op : Op) :
    (step w op).1.cons.Valid (step w op).1.heap := by
  intro e he
  rw [step_chains] at he
  cases hev : Spec.event w op with
  | added n r =>
    rw [hev] at he
    simp only [List.mem_append, List.mem_singleton] at he
    rcases he with he | rfl
    · exact Nat.lt_of_lt_of_le (hv e he) (step_heap_length w op)
    · exact event_added_valid hev
  | removed n =>
    rw [hev] at he
    simp only [List.mem_filter] at he
    exact Nat.lt_of_lt_of_le (hv e he.1) (step_heap_length w op)
  | other =>
    rw [hev] at he
    exact Nat.lt_of_lt_of_le (hv e he) (step_heap_length w op)

/-- References in the registry are valid after every history. -/
theorem valid_run (h : Heap ℝ) (ops : List Op) :
    let w := run { heap := h, cons := {} } ops
    w.cons.Valid w.heap := by
  suffices H : ∀ (w : World), w.cons.Valid w.heap → (run w ops).cons.Valid (run w ops).heap from
    H _ (by intro e he; simp at he)
  induction ops with
  | nil => intro w hw; exact hw
  | cons op ops ih => intro w hw; exact ih _ (valid_step hw op)

/-- **C02** (atomicity). In every world, a call that raises leaves the registry, the truths, the
override and every existing chain object exactly as they were. -/
theorem C02_rejected_calls_change_nothing (w : World) (op : Op) (e : Err)
    (he : (step w op).2 = .error e) :
    (step w op).1.cons = w.cons ∧ w.heap <+: (step w op).1.heap := by
  cases op with
  | newChain a => simp only [step] at he ⊢; split at he <;> simp_all
  | mutate r c => simp [step] at he
  | add r => simp only [step] at he ⊢; split at he <;> simp_all
  | removeName n => simp only [step] at he ⊢; split at he <;> simp_all
  | removeObj r => simp only [step] at he ⊢; split at he <;> simp_all
  | marker loc n col sz sty al kw => simp only [step] at he ⊢; split at he <;> simp_all
  | addTruth t => simp [step] at he
  | setOverride o => simp [step] at he
  | finalise => exact ⟨rfl, C04_final_chains_do_not_mutate w.heap w.cons⟩

/-- **C02** (when calls raise). `add_chain` raises exactly when the chain's name is taken,
`remove_chain` exactly when the name is absent, `get_chain` exactly when the name is absent. -/
theorem C02_calls_raise_iff (w : World) :
    (∀ r c, w.heap[r]? = some c →
      ((∃ e, (step w (.add r)).2 = .error e) ↔ c.name ∈ w.cons.getNames)) ∧
    (∀ n, (∃ e, (step w (.removeName n)).2 = .error e) ↔ n ∉ w.cons.getNames) ∧
    (∀ r c, w.heap[r]? = some c →
      ((∃ e, (step w (.removeObj r)).2 = .error e) ↔ c.name ∉ w.cons.getNames)) ∧
    (∀ n, (∃ e, w.cons.getChain n = .error e) ↔ n ∉ w.cons.getNames) := by
  refine ⟨?_, ?_, ?_, ?_⟩
  · intro r c hc
    simp only [step, Consumer.addChain, hc, Consumer.getNames]
    by_cases hn : c.name ∈ w.cons.chains.map Prod.fst <;> simp [hn]
  · intro n
    simp only [step, Consumer.removeName, Consumer.getNames]
    by_cases hn : n ∈ w.cons.chains.map Prod.fst <;> simp [hn]
  · intro r c hc
    simp only [step, Consumer.removeObj, hc, Consumer.removeName, Consumer.getNames]
    by_cases hn : c.name ∈ w.cons.chains.map Prod.fst <;> simp [hn]
  · intro n
    simp only [Consumer.getNames, ← lookup_eq_none_iff (d := w.cons.chains) n, Consumer.getChain]
    cases List.lookup n w.cons.chains <;> simp

/-- **C04.** Every plotting or analysis call leaves the registry untouched and, after any number of
such calls, every chain object that existed before them is unchanged. -/
theorem C04_plotting_changes_nothing (w : World) (k : Nat) :
    (run w (List.replicate k .finalise)).cons = w.cons ∧
    ∀ (r : Ref) (c : Chain ℝ), w.heap[r]? = some c →
      (run w (List.replicate k .finalise)).heap[r]? = some c := by
  induction k generalizing w with
  | zero => exact ⟨rfl, fun _ _ h => h⟩
  | succ k ih =>
    have := ih (step w .finalise).1
    simp only [List.replicate_succ]
    refine ⟨this.1, fun r c hr => this.2 r c ?_⟩
    obtain ⟨t, ht⟩ := C04_final_chains_do_not_mutate w.heap w.cons
    have hlt : r < w.heap.length := by
      rcases Nat.lt_or_ge r w.heap.length with hl | hl
      · exact hl
      · rw [List.getElem?_eq_none hl] at hr; cases hr
    have : (step w .finalise).1.heap = w.heap ++ t := ht.symm
    rw [this, List.getElem?_append_left hlt, hr]

theorem copyChains_getElem? {K : Type} {h : Heap K} {s : Consumer K} (hv : s.Valid h) (i : Nat) :
    (copyChains h s)[i]? = (s.chains[i]?).bind fun e => (h[e.2]?).map fun c => (e.1, c) := by
  obtain ⟨ch, t, o⟩ := s
  simp only [Consumer.Valid, copyChains] at *
  clear t o
  induction ch generalizing i with
  | nil => simp
  | cons e ch ih =>
    have hlt : e.2 < h.length := hv e List.mem_cons_self
    rw [List.filterMap_cons_some (b := (e.1, h[e.2])) (by simp [List.getElem?_eq_getElem hlt])]
    cases i with
    | zero => simp [List.getElem?_eq_getElem hlt]
    | succ i => simpa using ih i (fun q hq => hv q (List.mem_cons_of_mem _ hq))

theorem copyChains_length {K : Type} {h : Heap K} {s : Consumer K} (hv : s.Valid h) :
    (copyChains h s).length = s.chains.length := by
  obtain ⟨ch, t, o⟩ := s
  simp only [Consumer.Valid, copyChains] at *
  induction ch with
  | nil => simp
  | cons e ch ih =>
    have hlt : e.2 < h.length := hv e List.mem_cons_self
    rw [List.filterMap_cons_some (b := (e.1, h[e.2])) (by simp [List.getElem?_eq_getElem hlt])]
    simpa using ih (fun q hq => hv q (List.mem_cons_of_mem _ hq))

/-- The registered chain objects in registry order. -/
def chainsOf (h : Heap ℝ) (s : Consumer ℝ) : List (Chain ℝ) := (copyChains h s).map Prod.snd

theorem uncoloured_take {h : Heap ℝ} {s : Consumer ℝ} (hv : s.Valid h) (i : Nat) :
    uncoloured ((chainsOf h s).take i) = Spec.uncolouredBefore h (s.chains.map Prod.snd) i := by
  obtain ⟨ch, t, o⟩ := s
  simp only [Consumer.Valid, copyChains, chainsOf] at *
  clear t o
  induction ch generalizing i with
  | nil => simp [uncoloured, Spec.uncolouredBefore]
  | cons e ch ih =>
    have hlt : e.2 < h.length := hv e List.mem_cons_self
    rw [List.filterMap_cons_some (b := (e.1, h[e.2])) (by simp [List.getElem?_eq_getElem hlt])]
    cases i with
    | zero => simp [uncoloured, Spec.uncolouredBefore]
    | succ i =>
      have := ih i (fun q hq => hv q (List.mem_cons_of_mem _ hq))
      simp only [List.map_cons, List.take_succ_cons]
      simp only [uncoloured, Spec.uncolouredBefore, List.take_succ_cons, List.filter_cons,
        List.getElem?_eq_getElem hlt] at this ⊢
      by_cases hc : (h[e.2]).cfg .color = none
      · simp [hc, this]
      · simp [hc, this]

/-- Resolution succeeds exactly when at most 88 registered chains lack a colour, and then the
`i`-th final chain is the `i`-th registered chain with the settings resolved. -/
theorem finalChains_eq (h : Heap ℝ) (s : Consumer ℝ) :
    (uncoloured (chainsOf h s) ≤ 88 →
      finalChains h s =
        (.ok (((copyChains h s).map Prod.fst).zip
            ((List.range (copyChains h s).length).map (h.length + ·))),
          h ++ resolvedChains (numContourChains h s) s.override (chainsOf h s) 0)) ∧
    (88 < uncoloured (chainsOf h s) → (finalChains h s).1 = .error .stopIteration) := by
  constructor
  · intro hu
    have := finaliseLoop_ok (numContourChains h s) s.override h (chainsOf h s) 0 (by simpa using hu)
    simp only [chainsOf, List.length_map] at this
    simp only [finalChains, chainsOf]
    rw [this]
    rfl
  · intro hu
    have := finaliseLoop_exhausted (numContourChains h s) s.override h (chainsOf h s) 0
      (by simpa using hu) (by omega)
    simp only [chainsOf, List.length_map] at this
    simp only [finalChains]
    rw [this]
    rfl

/-- **C03.** In every state of the registry, if resolution succeeds then the final chains carry the
registered names in order, and each is a fresh object equal to the registered chain except that
every setting has the value prescribed by the documented precedence. -/
theorem C03_config_precedence (h : Heap ℝ) (s : Consumer ℝ) (hv : s.Valid h)
    (d : List (String × Ref)) (hd : (finalChains h s).1 = .ok d) :
    d.map Prod.fst = s.getNames ∧
    ∀ (i : Nat) (n : String) (r : Ref), s.chains[i]? = some (n, r) →
      ∃ (r' : Ref) (o c : Chain ℝ) (colour : String),
      d[i]? = some (n, r') ∧ h.length ≤ r' ∧ h[r]? = some o ∧ (finalChains h s).2[r']? = some c ∧
      c = { o with cfg := c.cfg } ∧
      (∀ k, c.cfg k = Spec.resolved s.override o.userSet (numContourChains h s) o.cfg colour k) ∧
      (o.cfg .color = none →
        Spec.autoColours[Spec.uncolouredBefore h (s.chains.map Prod.snd) i]? = some colour) := by
  obtain ⟨hok, hbad⟩ := finalChains_eq h s
  rcases Nat.lt_or_ge 88 (uncoloured (chainsOf h s)) with hu | hu
  · rw [hbad hu] at hd; cases hd
  · have hfin := hok hu
    rw [hfin] at hd
    simp only [Except.ok.injEq] at hd
    have hlen := copyChains_length hv
    constructor
    · rw [← hd, List.map_fst_zip (by simp)]
      apply List.ext_getElem?
      intro i
      rw [List.getElem?_map, copyChains_getElem? hv, Consumer.getNames, List.getElem?_map]
      cases hi : s.chains[i]? with
      | none => rfl
      | some e =>
        have := hv e (List.mem_of_getElem? hi)
        simp [List.getElem?_eq_getElem this]
    · intro i n r hi
      have hrlt : r < h.length := hv (n, r) (List.mem_of_getElem? hi)
      have hilt : i < s.chains.length := by
        rcases Nat.lt_or_ge i s.chains.length with hl | hl
        · exact hl
        · rw [List.getElem?_eq_none hl] at hi; cases hi
      have hcopy : (copyChains h s)[i]? = some (n, h[r]) := by
        rw [copyChains_getElem? hv, hi]; simp [List.getElem?_eq_getElem hrlt]
      have hchain : (chainsOf h s)[i]? = some h[r] := by
        rw [chainsOf, List.getElem?_map, hcopy]; rfl
      let colour := Spec.autoColours.getD (0 + uncoloured ((chainsOf h s).take i)) ""
      refine ⟨h.length + i, h[r], (h[r]).withCfg (Spec.resolved s.override (h[r]).userSet
        (numContourChains h s) (h[r]).cfg colour), colour, ?_, by omega,
        List.getElem?_eq_getElem hrlt, ?_, rfl, fun k => rfl, ?_⟩
      rotate_left
      · rw [hfin]
        simp only
        rw [List.getElem?_append_right (by omega), Nat.add_sub_cancel_left,
          resolvedChains_getElem?, hchain]
        rfl
      · intro hnone
        have hcount := uncoloured_take hv i
        simp only [colour]
        rw [hcount, Nat.zero_add]
        have hle : Spec.uncolouredBefore h (s.chains.map Prod.snd) i < 88 := by
          have : uncoloured ((chainsOf h s).take (i + 1)) ≤ uncoloured (chainsOf h s) :=
            (List.Sublist.filter _ (List.take_sublist _ _)).length_le
          rw [List.take_add_one, hchain] at this
          simp only [uncoloured, Option.toList_some, List.filter_append, List.length_append] at this
          simp only [hnone, decide_true, List.filter_cons_of_pos, List.filter_nil,
            List.length_singleton] at this
          rw [← hcount]
          simp only [uncoloured] at hu ⊢
          omega
        rw [← autoColours_length] at hle
        rw [List.getD_eq_getElem?_getD, List.getElem?_eq_getElem hle]
        rfl
      · rw [← hd, List.getElem?_zip_eq_some]
        simp only [List.getElem?_map, hcopy, Option.map_some, true_and]
        rw [List.getElem?_range (by omega)]
        rfl

/-- **C05.** Resolution succeeds exactly when at most 88 registered chains have no colour of their
own; beyond that every plot or summary fails with StopIteration. -/
theorem C05_colours_run_out_after_88 (h : Heap ℝ) (s : Consumer ℝ) (hv : s.Valid h) :
    ((∃ d, (finalChains h s).1 = .ok d) ↔
      Spec.uncolouredBefore h (s.chains.map Prod.snd) s.chains.length ≤ 88) ∧
    (∀ e, (finalChains h s).1 = .error e → e = .stopIteration) := by
  have hc : uncoloured (chainsOf h s) =
      Spec.uncolouredBefore h (s.chains.map Prod.snd) s.chains.length := by
    rw [← uncoloured_take hv, List.take_of_length_le]
    simp [chainsOf, copyChains_length hv]
  obtain ⟨hok, hbad⟩ := finalChains_eq h s
  rw [← hc]
  rcases Nat.lt_or_ge 88 (uncoloured (chainsOf h s)) with hu | hu
  · rw [hbad hu]
    refine ⟨⟨?_, fun h => absurd h (by omega)⟩, fun e he => ?_⟩
    · rintro ⟨d, hd⟩
      exact absurd hd (by simp)
    · simpa using he.symm
  · rw [hok hu]
    exact ⟨⟨fun _ => hu, fun _ => ⟨_, rfl⟩⟩, by simp⟩

theorem autoColours_nodup : Spec.autoColours.Nodup := by decide +kernel

theorem uncolouredBefore_lt {h : Heap ℝ} {refs : List Ref} {i j : Nat} {r : Ref} {c : Chain ℝ}
    (hij : i < j) (hi : refs[i]? = some r) (hr : h[r]? = some c) (hc : c.cfg .color = none) :
    Spec.uncolouredBefore h refs i < Spec.uncolouredBefore h refs j := by
  have h1 : (refs.take (i + 1)).Sublist (refs.take j) := by
    rw [show refs.take (i + 1) = (refs.take j).take (i + 1) by
      rw [List.take_take]; congr 1; omega]
    exact List.take_sublist _ _
  have h2 := (List.Sublist.filter (fun r => (h[r]?).any fun c => decide (c.cfg .color = none)) h1).length_le
  rw [List.take_add_one, hi] at h2
  simp only [Option.toList_some, List.filter_append, List.length_append, List.filter_cons, hr, hc,
    Option.any_some, decide_true, if_true, List.filter_nil, List.length_singleton] at h2
  simp only [Spec.uncolouredBefore]
  omega

/-- **C05** (distinctness). Two different registered chains for which no colour was given (neither
explicitly on the chain nor by the override) receive different final colours, both from the
automatic palette. -/
theorem C05_automatic_colours_distinct (h : Heap ℝ) (s : Consumer ℝ) (hv : s.Valid h)
    (d : List (String × Ref)) (hd : (finalChains h s).1 = .ok d)
    (hov : ∀ o, s.override = some o → .color ∉ o.userSet)
    (i j : Nat) (hij : i ≠ j) (n m : String) (r q : Ref) (o p : Chain ℝ)
    (hi : s.chains[i]? = some (n, r)) (hj : s.chains[j]? = some (m, q))
    (ho : h[r]? = some o) (hp : h[q]? = some p)
    (hoc : o.cfg .color = none ∧ .color ∉ o.userSet)
    (hpc : p.cfg .color = none ∧ .color ∉ p.userSet) :
    ∃ (r' q' : Ref) (c e : Chain ℝ) (s1 s2 : String),
      d[i]? = some (n, r') ∧ d[j]? = some (m, q') ∧
      (finalChains h s).2[r']? = some c ∧ (finalChains h s).2[q']? = some e ∧
      c.cfg .color = some s1 ∧ e.cfg .color = some s2 ∧ s1 ≠ s2 ∧
      s1 ∈ Spec.autoColours ∧ s2 ∈ Spec.autoColours := by
  obtain ⟨-, H⟩ := C03_config_precedence h s hv d hd
  obtain ⟨r', o', c, s1, a1, -, a2, a3, -, a4, a5⟩ := H i n r hi
  obtain ⟨q', p', e, s2, b1, -, b2, b3, -, b4, b5⟩ := H j m q hj
  rw [ho] at a2; cases a2
  rw [hp] at b2; cases b2
  have a6 := a5 hoc.1
  have b6 := b5 hpc.1
  have col : ∀ (x : Chain ℝ) (t : String), x.cfg .color = none ∧ Key.color ∉ x.userSet →
      Spec.resolved s.override x.userSet (numContourChains h s) x.cfg t .color = some t := by
    intro x t hx
    unfold Spec.resolved
    cases hs : s.override with
    | none => simp [hx.1, hx.2, Spec.auto]
    | some o => simp [hx.1, hx.2, Spec.auto, hov o hs]
  refine ⟨r', q', c, e, s1, s2, a1, b1, a3, b3, ?_, ?_, ?_, List.mem_of_getElem? a6,
    List.mem_of_getElem? b6⟩
  · rw [a4, col o s1 hoc]
  · rw [b4, col p s2 hpc]
  · intro heq
    subst heq
    have hi' : (s.chains.map Prod.snd)[i]? = some r := by rw [List.getElem?_map, hi]; rfl
    have hj' : (s.chains.map Prod.snd)[j]? = some q := by rw [List.getElem?_map, hj]; rfl
    have hne : Spec.uncolouredBefore h (s.chains.map Prod.snd) i
        ≠ Spec.uncolouredBefore h (s.chains.map Prod.snd) j := by
      rcases Nat.lt_or_gt_of_ne hij with hlt | hlt
      · exact Nat.ne_of_lt (uncolouredBefore_lt hlt hi' ho hoc.1)
      · exact (Nat.ne_of_lt (uncolouredBefore_lt hlt hj' hp hpc.1)).symm
    obtain ⟨l1, g1⟩ := List.getElem?_eq_some_iff.1 a6
    obtain ⟨l2, g2⟩ := List.getElem?_eq_some_iff.1 b6
    exact hne ((List.Nodup.getElem_inj_iff autoColours_nodup).1 (g1.trans g2.symm))

/-- The number of registered chains drawing contours, as a count over the registry. -/
theorem numContourChains_eq (h : Heap ℝ) (s : Consumer ℝ) :
    numContourChains h s = s.chains.countP fun e => (h[e.2]?).any fun c => c.cfg .plotContour := by
  rw [List.countP_eq_length_filter]; rfl

/-- **C06.** For every registered chain whose shading settings were given neither on the chain nor
by the override: it is shaded exactly when fewer than five registered chains draw contours, with
opacity `1/√n`, halved if contour labels are shown (`n > 0` being the number of such chains). -/
theorem C06_automatic_shading (h : Heap ℝ) (s : Consumer ℝ) (hv : s.Valid h)
    (d : List (String × Ref)) (hd : (finalChains h s).1 = .ok d)
    (i : Nat) (n : String) (r : Ref) (o : Chain ℝ)
    (hi : s.chains[i]? = some (n, r)) (ho : h[r]? = some o)
    (huser : ∀ k ∈ [Key.shade, .barShade, .shadeAlpha], k ∉ o.userSet ∧
      ∀ ov, s.override = some ov → k ∉ ov.userSet) :
    let N := s.chains.countP fun e => (h[e.2]?).any fun c => c.cfg .plotContour
    ∃ (r' : Ref) (c : Chain ℝ), d[i]? = some (n, r') ∧ (finalChains h s).2[r']? = some c ∧
      (c.cfg .shade = true ↔ N < 5) ∧ (c.cfg .barShade = true ↔ N < 5) ∧
      (0 < N → o.cfg .showContourLabels = false → c.cfg .shadeAlpha = .fin (1 / Real.sqrt N)) ∧
      (0 < N → o.cfg .showContourLabels = true → c.cfg .shadeAlpha = .fin (1 / Real.sqrt N / 2)) ∧
      (N = 0 → c.cfg .shadeAlpha = .posInf) := by
  obtain ⟨-, H⟩ := C03_config_precedence h s hv d hd
  obtain ⟨r', o', c, col, a1, -, a2, a3, -, a4, -⟩ := H i n r hi
  rw [ho] at a2; cases a2
  intro N
  have hN : numContourChains h s = N := numContourChains_eq h s
  have key : ∀ k ∈ [Key.shade, .barShade, .shadeAlpha],
      c.cfg k = (Spec.auto N o.cfg col k).getD (o.cfg k) := by
    intro k hk
    obtain ⟨h1, h2⟩ := huser k hk
    rw [a4, hN]
    unfold Spec.resolved
    cases hs : s.override with
    | none => simp [h1]
    | some ov => simp [h1, h2 ov hs]
  have k1 := key .shade (by simp)
  have k2 := key .barShade (by simp)
  have k3 := key .shadeAlpha (by simp)
  simp only [Spec.auto, Option.getD_some] at k1 k2 k3
  refine ⟨r', c, a1, a3, by rw [k1]; simp, by rw [k2]; simp, ?_, ?_, ?_⟩
  · intro hpos hl
    rw [k3, Spec.autoAlpha, hl, if_neg (by omega)]; rfl
  · intro hpos hl
    rw [k3, Spec.autoAlpha, hl, if_neg (by omega)]; rfl
  · intro h0
    rw [k3, Spec.autoAlpha, if_pos h0]

/-! ### A concrete world meeting the hypotheses -/

/-- A one-row chain named `n`. -/
noncomputable def demoChain (n : String) : Chain ℝ :=
  { cfg := resolveStatistics (Cfg.default ℝ), userSet := [],
    samples := { index := [.int 0], cols := [("a", [1]), ("weight", [1])] }, name := n,
    weightColumn := "weight", posteriorColumn := "log_posterior", walkers := 1, grid := false,
    numFreeParams := none, numEffDataPoints := none, power := 1, showLabelInLegend := true,
    histogramRelativeHeight := .fin 1 }

/-- A history: add two chains, fail to re-add the first name, remove it, add it again. -/
noncomputable def demoWorld : World :=
  run { heap := [demoChain "x", demoChain "y"], cons := {} }
    [.add 0, .add 1, .add 0, .removeName "x", .removeName "z", .finalise, .add 0]

example : demoWorld.cons.chains = [("y", 1), ("x", 0)] := by
  have h : (finalChains [demoChain "x", demoChain "y"]
      { chains := [("y", 1)], truths := [], override := none }).2[0]? = some (demoChain "x") := by
    obtain ⟨t, ht⟩ := C04_final_chains_do_not_mutate [demoChain "x", demoChain "y"]
      { chains := [("y", 1)], truths := [], override := none }
    rw [← ht]; rfl
  simp [demoWorld, run, step, Consumer.addChain, Consumer.removeName, dictSet, dictPop, demoChain]
  simp only [demoChain] at h
  rw [h]
  simp

example : demoWorld.cons.Valid demoWorld.heap := valid_run _ _

/-- The hypotheses of `C05_automatic_colours_distinct` and `C06_automatic_shading` are met by two
default chains. -/
example : let h : Heap ℝ := [demoChain "x", demoChain "y"]
    let s : Consumer ℝ := { chains := [("x", 0), ("y", 1)] }
    s.Valid h ∧ (∃ d, (finalChains h s).1 = .ok d) ∧ (demoChain "x").cfg .color = none ∧
      Key.color ∉ (demoChain "x").userSet := by
  have hv : Consumer.Valid [demoChain "x", demoChain "y"]
      ({ chains := [("x", 0), ("y", 1)] } : Consumer ℝ) := by
    intro e he
    simp only [List.mem_cons, List.not_mem_nil, or_false] at he
    rcases he with rfl | rfl <;> simp
  refine ⟨hv, ?_, ?_, ?_⟩
  · rw [(C05_colours_run_out_after_88 _ _ hv).1]
    refine Nat.le_trans (List.length_filter_le _ _) ?_
    simp
  · simp [demoChain, resolveStatistics, Cfg.default, Cfg.set]
  · simp [demoChain]

end CC
