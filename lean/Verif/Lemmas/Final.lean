import Verif.Model.Consumer
import Verif.Spec.Config
import Verif.Lemmas.Except

/-! Lemmas about `_get_final_chains`. -/

namespace CC

theorem nextColours_eq : Colors.nextColours = Spec.autoColours.map .ok := by decide +kernel

theorem autoColours_length : Spec.autoColours.length = 88 := by decide

theorem nextColour_ok {n : Nat} (h : n < 88) :
    nextColour n = .ok (Spec.autoColours[n]'(by rw [autoColours_length]; exact h)) := by
  have : n < Spec.autoColours.length := by rw [autoColours_length]; exact h
  simp only [nextColour, nextColours_eq]
  rw [List.getElem?_map, List.getElem?_eq_getElem this]
  rfl

theorem nextColour_error {n : Nat} (h : 88 ≤ n) : nextColour n = .error .stopIteration := by
  have : Spec.autoColours.length ≤ n := by rw [autoColours_length]; exact h
  simp only [nextColour, nextColours_eq]
  rw [List.getElem?_map, List.getElem?_eq_none this]
  rfl

theorem apply_userDump (c : Cfg ℝ) (o : Config ℝ) (k : Key) :
    c.apply o.userDump k = if k ∈ o.userSet then o.vals k else c k := by
  obtain ⟨vals, us⟩ := o
  simp only [Config.userDump, Cfg.apply]
  induction us generalizing c with
  | nil => simp
  | cons a us ih =>
    simp only [List.map_cons, List.foldl_cons, ih, List.mem_cons]
    by_cases hk : k ∈ us
    · simp [hk]
    · simp only [hk, if_false, or_false, Cfg.set]
      by_cases hka : k = a
      · subst hka; simp
      · simp [hka]

theorem globalAlpha_eq (n : Nat) (b : Bool) :
    (if b then (globalAlpha n).scalePos (1 / 2) else globalAlpha n) = Spec.autoAlpha n b := by
  unfold globalAlpha Spec.autoAlpha
  by_cases hn : n = 0
  · simp [hn, Flt.scalePos]
  · cases b <;> simp [hn, Flt.scalePos]; ring

theorem applyIfNotUserSet_eq {K : Type} (user : List Key) (c : Cfg K) (kw : List (Kwarg K))
    (k : Key) :
    Cfg.applyIfNotUserSet user c kw k = if k ∈ user then c k else c.apply kw k := by
  simp only [Cfg.applyIfNotUserSet, Cfg.apply]
  suffices h : ∀ c d : Cfg K, (k ∈ user → c k = d k) → (k ∉ user → c k = d k) →
      kw.foldl (fun c kv => if kv.1 ∈ user then c else c.set kv) c k
        = if k ∈ user then c k else kw.foldl Cfg.set d k from h c c (fun _ => rfl) (fun _ => rfl)
  induction kw with
  | nil => intro c d h1 h2; simp only [List.foldl_nil]; split_ifs with h; rfl; exact h2 h
  | cons a kw ih =>
    intro c d h1 h2
    simp only [List.foldl_cons]
    by_cases ha : a.1 ∈ user
    · simp only [ha, if_true]
      by_cases hk : k ∈ user
      · rw [ih c c (fun _ => rfl) (fun _ => rfl)]; simp [hk]
      · have hne : k ≠ a.1 := fun h => hk (h ▸ ha)
        rw [ih c (d.set a) (fun h => absurd h hk) (fun h => by
          rw [h2 h]; simp [Cfg.set, hne])]
    · simp only [ha, if_false]
      by_cases hk : k ∈ user
      · have hne : k ≠ a.1 := fun h => ha (h ▸ hk)
        rw [ih (c.set a) (c.set a) (fun _ => rfl) (fun _ => rfl)]; simp [hk, Cfg.set, hne]
      · rw [ih (c.set a) (d.set a) (fun h => absurd h hk) (fun h => by
          simp only [Cfg.set, Function.update]
          split_ifs with he
          · rfl
          · exact h2 h)]
        simp [hk]

/-- The automatic settings of one chain as a keyword list. -/
theorem auto_apply_none (n : Nat) (c : Cfg ℝ) (col : String) (k : Key) {s : String}
    (hc : c .color = some s) :
    c.apply (globalConfig n ++ [⟨.shadeAlpha, Spec.autoAlpha n (c .showContourLabels)⟩]) k
      = (Spec.auto n c col k).getD (c k) := by
  simp only [Cfg.apply, globalConfig, List.cons_append, List.nil_append, List.foldl_cons,
    List.foldl_nil, Cfg.set]
  cases k <;> simp [Spec.auto, hc]

theorem auto_apply_some (n : Nat) (c : Cfg ℝ) (col : String) (k : Key) (hc : c .color = none) :
    c.apply (globalConfig n ++ [⟨.shadeAlpha, Spec.autoAlpha n (c .showContourLabels)⟩]
        ++ [⟨.color, some col⟩]) k
      = (Spec.auto n c col k).getD (c k) := by
  simp only [Cfg.apply, globalConfig, List.cons_append, List.nil_append, List.foldl_cons,
    List.foldl_nil, Cfg.set]
  cases k <;> simp [Spec.auto, hc]

/-- The attribute values after one loop iteration, for a chain with a colour. -/
theorem finaliseCfg_some {n : Nat} {ov : Option (Config ℝ)} {c : Chain ℝ} {s : String}
    (hc : c.cfg .color = some s) (u : Nat) (col : String) :
    finaliseCfg n ov c u = .ok (Spec.resolved ov c.userSet n c.cfg col, u) := by
  simp only [finaliseCfg, hc, globalAlpha_eq]
  simp only [bind, Except.bind, pure, Except.pure]
  congr 2
  funext k
  cases ov with
  | none =>
    simp only [Spec.resolved]
    rw [applyIfNotUserSet_eq, auto_apply_none n c.cfg col k hc]
  | some o =>
    simp only [Spec.resolved, apply_userDump]
    rw [applyIfNotUserSet_eq, auto_apply_none n c.cfg col k hc]

/-- The attribute values after one loop iteration, for a chain without a colour. -/
theorem finaliseCfg_none {n : Nat} {ov : Option (Config ℝ)} {c : Chain ℝ}
    (hc : c.cfg .color = none) {u : Nat} (hu : u < 88) :
    finaliseCfg n ov c u = .ok (Spec.resolved ov c.userSet n c.cfg
      (Spec.autoColours.getD u ""), u + 1) := by
  have h88 : u < Spec.autoColours.length := by rw [autoColours_length]; exact hu
  have hD : Spec.autoColours.getD u "" = Spec.autoColours[u] := by
    rw [List.getD_eq_getElem?_getD, List.getElem?_eq_getElem h88]; rfl
  simp only [finaliseCfg, hc, globalAlpha_eq, nextColour_ok hu, hD]
  simp only [bind, Except.bind, pure, Except.pure]
  congr 2
  funext k
  cases ov with
  | none =>
    simp only [Spec.resolved]
    rw [applyIfNotUserSet_eq, auto_apply_some n c.cfg _ k hc]
  | some o =>
    simp only [Spec.resolved, apply_userDump]
    rw [applyIfNotUserSet_eq, auto_apply_some n c.cfg _ k hc]

theorem finaliseCfg_exhausted {n : Nat} {ov : Option (Config ℝ)} {c : Chain ℝ}
    (hc : c.cfg .color = none) {u : Nat} (hu : 88 ≤ u) :
    finaliseCfg n ov c u = .error .stopIteration := by
  simp only [finaliseCfg, hc, nextColour_error hu]
  simp only [bind, Except.bind]

/-- Number of chains without a colour. -/
def uncoloured (cs : List (Chain ℝ)) : Nat := (cs.filter fun c => c.cfg .color = none).length

/-- What the loop computes: the `i`-th chain gets the settings resolved with the colour whose number
is the count of uncoloured chains before it. -/
noncomputable def resolvedChains (n : Nat) (ov : Option (Config ℝ)) : List (Chain ℝ) → Nat →
    List (Chain ℝ)
  | [], _ => []
  | c :: cs, u =>
    c.withCfg (Spec.resolved ov c.userSet n c.cfg (Spec.autoColours.getD u "")) ::
      resolvedChains n ov cs (if c.cfg .color = none then u + 1 else u)

theorem resolvedChains_length (n : Nat) (ov : Option (Config ℝ)) (cs : List (Chain ℝ)) (u : Nat) :
    (resolvedChains n ov cs u).length = cs.length := by
  induction cs generalizing u with
  | nil => rfl
  | cons c cs ih => simp [resolvedChains, ih]

theorem resolvedChains_getElem? (n : Nat) (ov : Option (Config ℝ)) (cs : List (Chain ℝ)) (u i : Nat) :
    (resolvedChains n ov cs u)[i]? = (cs[i]?).map fun c =>
      c.withCfg (Spec.resolved ov c.userSet n c.cfg
          (Spec.autoColours.getD (u + uncoloured (cs.take i)) "")) := by
  induction cs generalizing u i with
  | nil => simp [resolvedChains]
  | cons c cs ih =>
    cases i with
    | zero => simp [resolvedChains, uncoloured]
    | succ i =>
      simp only [resolvedChains, List.getElem?_cons_succ, ih, List.take_succ_cons]
      congr 1
      funext c'
      have : (if c.cfg Key.color = none then u + 1 else u) + uncoloured (List.take i cs)
          = u + uncoloured (c :: List.take i cs) := by
        by_cases h : c.cfg Key.color = none
        · simp [uncoloured, h]; omega
        · simp [uncoloured, h]
      rw [this]

theorem finaliseLoop_ok (n : Nat) (ov : Option (Config ℝ)) (pre cs : List (Chain ℝ)) (u : Nat)
    (hu : u + uncoloured cs ≤ 88) :
    finaliseLoop n ov ((List.range cs.length).map (pre.length + ·)) u (pre ++ cs)
      = (.ok (), pre ++ resolvedChains n ov cs u) := by
  induction cs generalizing pre u with
  | nil => simp [finaliseLoop, resolvedChains]
  | cons c cs ih =>
    have hr : (List.range (c :: cs).length).map (pre.length + ·)
        = pre.length :: (List.range cs.length).map ((pre ++ [c]).length + ·) := by
      rw [List.length_cons, List.range_succ_eq_map, List.map_cons, List.map_map]
      simp only [Nat.add_zero, List.length_append, List.length_singleton, List.cons.injEq, true_and]
      apply List.map_congr_left
      intro i _
      simp only [Function.comp_apply]; omega
    rw [hr, finaliseLoop]
    have hget : (pre ++ c :: cs)[pre.length]? = some c := by simp
    simp only [hget]
    have hset : ∀ d : Chain ℝ, (pre ++ c :: cs).set pre.length d = (pre ++ [d]) ++ cs := by
      intro d; simp
    by_cases hc : c.cfg .color = none
    · have hu' : u < 88 := by simp [uncoloured, hc] at hu; omega
      rw [finaliseCfg_none hc hu']
      simp only [hset]
      have : (pre ++ [c]).length = (pre ++ [c.withCfg (Spec.resolved ov c.userSet n c.cfg
        (Spec.autoColours.getD u ""))]).length := by simp
      rw [this, ih]
      · simp only [resolvedChains, hc, if_true, List.append_assoc, List.singleton_append]
      · simp [uncoloured, hc] at hu ⊢; omega
    · obtain ⟨s, hs⟩ := Option.ne_none_iff_exists'.1 hc
      rw [finaliseCfg_some hs u (Spec.autoColours.getD u "")]
      simp only [hset]
      have : (pre ++ [c]).length = (pre ++ [c.withCfg (Spec.resolved ov c.userSet n c.cfg
        (Spec.autoColours.getD u ""))]).length := by simp
      rw [this, ih]
      · simp only [resolvedChains, hc, if_false, List.append_assoc, List.singleton_append]
      · simp [uncoloured, hs] at hu ⊢; omega

theorem finaliseLoop_exhausted (n : Nat) (ov : Option (Config ℝ)) (pre cs : List (Chain ℝ)) (u : Nat)
    (hu : 88 < u + uncoloured cs) (hu' : u ≤ 88) :
    (finaliseLoop n ov ((List.range cs.length).map (pre.length + ·)) u (pre ++ cs)).1
      = .error .stopIteration := by
  induction cs generalizing pre u with
  | nil => simp [uncoloured] at hu; omega
  | cons c cs ih =>
    have hr : (List.range (c :: cs).length).map (pre.length + ·)
        = pre.length :: (List.range cs.length).map ((pre ++ [c]).length + ·) := by
      rw [List.length_cons, List.range_succ_eq_map, List.map_cons, List.map_map]
      simp only [Nat.add_zero, List.length_append, List.length_singleton, List.cons.injEq, true_and]
      apply List.map_congr_left
      intro i _
      simp only [Function.comp_apply]; omega
    rw [hr, finaliseLoop]
    have hget : (pre ++ c :: cs)[pre.length]? = some c := by simp
    simp only [hget]
    have hset : ∀ d : Chain ℝ, (pre ++ c :: cs).set pre.length d = (pre ++ [d]) ++ cs := by
      intro d; simp
    by_cases hc : c.cfg .color = none
    · rcases Nat.lt_or_ge u 88 with h | h
      · rw [finaliseCfg_none hc h]
        simp only [hset]
        have : (pre ++ [c]).length = (pre ++ [c.withCfg (Spec.resolved ov c.userSet n c.cfg
        (Spec.autoColours.getD u ""))]).length := by simp
        rw [this]
        refine ih _ _ ?_ (by omega)
        simp [uncoloured, hc] at hu ⊢; omega
      · rw [finaliseCfg_exhausted hc h]
    · obtain ⟨s, hs⟩ := Option.ne_none_iff_exists'.1 hc
      rw [finaliseCfg_some hs u (Spec.autoColours.getD u "")]
      simp only [hset]
      have : (pre ++ [c]).length = (pre ++ [c.withCfg (Spec.resolved ov c.userSet n c.cfg
        (Spec.autoColours.getD u ""))]).length := by simp
      rw [this]
      refine ih _ _ ?_ hu'
      simp [uncoloured, hs] at hu ⊢; omega

/-- The loop never writes to objects other than those it is given. -/
theorem finaliseLoop_take (n : Nat) (ov : Option (Config ℝ)) (m : Nat) (refs : List Ref)
    (hr : ∀ r ∈ refs, m ≤ r) (u : Nat) (h : Heap ℝ) :
    (finaliseLoop n ov refs u h).2.take m = h.take m := by
  induction refs generalizing u h with
  | nil => rfl
  | cons r refs ih =>
    rw [finaliseLoop]
    split
    · rfl
    · split
      · rfl
      · rw [ih (fun q hq => hr q (List.mem_cons_of_mem _ hq))]
        rw [List.take_set_of_le]
        exact hr r List.mem_cons_self

end CC
