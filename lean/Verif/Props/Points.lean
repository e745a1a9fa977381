import Verif.Model.Points
import Verif.Props.MaxPosterior
import Verif.Props.PanelRanges
import Verif.Lemmas.Dict

/-! # C72: maximum posterior points of all chains; C73: markers are where they are put -/

namespace CC
open Spec

/-! ### C72 -/

/-- The chain has a posterior column. -/
def Spec.HasPosterior {K : Type} (c : Chain K) : Prop := c.posteriorColumn ∈ c.samples.columns

instance {K : Type} (c : Chain K) : Decidable (HasPosterior c) := by unfold HasPosterior; infer_instance

section
variable {K : Type} [LinearOrder K]

theorem postLoop_spec {d : List (String × Chain K)} {res : List (String × Chain.MaxPosterior K)} (h : postLoop d = .ok res) :
    res.map Prod.fst = (d.filter fun e => HasPosterior e.2).map Prod.fst ∧
    ∀ e ∈ res, ∃ c, (e.1, c) ∈ d ∧ c.maxPosteriorPoint = .ok (some e.2) := by
  induction d generalizing res with
  | nil => cases h; simp
  | cons e d ih =>
    simp only [postLoop] at h
    rw [bind_ok_iff] at h
    obtain ⟨p, hp, h⟩ := h
    rw [bind_ok_iff] at h
    obtain ⟨r, hr, h⟩ := h
    cases h
    obtain ⟨i1, i2⟩ := ih hr
    cases p with
    | none =>
      have hn : ¬ HasPosterior e.2 := (C12_none_iff e.2).1 hp
      refine ⟨by simpa [postEntry, hn] using i1, fun x hx => ?_⟩
      obtain ⟨c, hc, hm⟩ := i2 x (by simpa [postEntry] using hx)
      exact ⟨c, List.mem_cons_of_mem _ hc, hm⟩
    | some m =>
      have hn : HasPosterior e.2 := by
        by_contra hc
        rw [(C12_none_iff e.2).2 hc] at hp
        cases hp
      refine ⟨by simpa [postEntry, hn] using i1, fun x hx => ?_⟩
      simp only [postEntry, List.singleton_append, List.mem_cons] at hx
      rcases hx with rfl | hx
      · exact ⟨e.2, List.mem_cons_self .., hp⟩
      · obtain ⟨c, hc, hm⟩ := i2 x hx
        exact ⟨c, List.mem_cons_of_mem _ hc, hm⟩

theorem postLoop_ok {d : List (String × Chain K)} (h : ∀ e ∈ d, ∃ p, e.2.maxPosteriorPoint = .ok p) :
    ∃ res, postLoop d = .ok res := by
  induction d with
  | nil => exact ⟨[], rfl⟩
  | cons e d ih =>
    obtain ⟨p, hp⟩ := h e (List.mem_cons_self ..)
    obtain ⟨r, hr⟩ := ih fun x hx => h x (List.mem_cons_of_mem _ hx)
    exact ⟨postEntry e.1 p ++ r, by simp only [postLoop, hp, hr]; rfl⟩

omit [LinearOrder K] in
/-- **C72** (which chains). Without argument all registered chains are reported, in order; with names the named ones, each once,
in the order of first mention; an unknown name raises KeyError. -/
theorem C72_requested (h : Heap K) (s : Consumer K) (hreg : ∀ e ∈ s.chains, e.2 < h.length) :
    (∃ d, postChains h s .all = .ok d ∧ List.Forall₂ (fun e x => x.1 = e.1 ∧ h[e.2]? = some x.2) s.chains d) ∧
    ∀ ns : List String,
      ((∀ n ∈ ns, n ∈ s.chains.map Prod.fst) →
        ∃ d, postChains h s (.names ns) = .ok d ∧ FirstOrder ns (d.map Prod.fst) ∧
          ∀ e ∈ d, ∃ r, s.chains.lookup e.1 = some r ∧ h[r]? = some e.2) ∧
      ((∃ n ∈ ns, n ∉ s.chains.map Prod.fst) → postChains h s (.names ns) = .error .key) := by
  have hres : ∀ e ∈ s.chains, ∀ n, ∃ c, h[e.2]? = some c ∧ registered h (n, e.2) = .ok (n, c) := by
    intro e he n
    have := hreg e he
    exact ⟨h[e.2], List.getElem?_eq_getElem this, by simp [registered, List.getElem?_eq_getElem this]⟩
  have hnamed : ∀ n ∈ s.chains.map Prod.fst, ∃ r c, s.chains.lookup n = some r ∧ h[r]? = some c ∧
      chainNamed h s n = .ok (n, c) := by
    intro n hn
    have := (lookup_isSome_iff s.chains n).2 hn
    obtain ⟨r, hr⟩ := Option.isSome_iff_exists.1 this
    obtain ⟨c, h1, h2⟩ := hres (n, r) (lookup_mem hr) n
    exact ⟨r, c, hr, h1, by simp only [chainNamed, hr, h2]⟩
  refine ⟨?_, fun ns => ⟨fun hns => ?_, ?_⟩⟩
  · obtain ⟨d, hd⟩ := mapM_ok_of_forall (f := registered h) (l := s.chains) fun e he => by
      obtain ⟨c, -, h2⟩ := hres e he e.1
      exact ⟨_, h2⟩
    refine ⟨d, hd, (mapM_ok_iff.1 hd).imp fun e x hx => ?_⟩
    simp only [registered] at hx
    split at hx
    · rename_i c hc
      cases hx
      exact ⟨rfl, hc⟩
    · cases hx
  · obtain ⟨kvs, hkv⟩ := mapM_ok_of_forall (f := chainNamed h s) (l := ns) fun n hn => by
      obtain ⟨r, c, -, -, h3⟩ := hnamed n (hns n hn)
      exact ⟨_, h3⟩
    have hk : kvs.map Prod.fst = ns := by
      have := mapM_ok_iff.1 hkv
      clear hkv
      induction this with
      | nil => rfl
      | cons hx _ ih =>
        rename_i a b l r _
        obtain ⟨r', c, -, -, h3⟩ := hnamed a (hns a (List.mem_cons_self ..))
        rw [hx] at h3
        cases h3
        rw [List.map_cons, ih fun n hn => hns n (List.mem_cons_of_mem _ hn)]
    obtain ⟨f1, f2⟩ := dictMerge_nil_spec kvs
    refine ⟨dictMerge [] kvs, by simp only [postChains, hkv]; rfl, hk ▸ f1, fun e he => ?_⟩
    obtain ⟨pre, post, hpp, -⟩ := f2 e he
    obtain ⟨n, hn, hx⟩ := mapM_ok_mem_right hkv (y := e) (by rw [hpp]; simp)
    obtain ⟨r, c, h1, h2, h3⟩ := hnamed n (hns n hn)
    rw [hx] at h3
    cases h3
    exact ⟨r, h1, h2⟩
  · rintro ⟨n, hn, hno⟩
    have : ns.mapM (chainNamed h s) = .error .key := by
      clear hnamed
      induction ns with
      | nil => cases hn
      | cons a l ih =>
        rw [List.mapM_cons]
        by_cases ha : a ∈ s.chains.map Prod.fst
        · have hl := (lookup_isSome_iff s.chains a).2 ha
          obtain ⟨r, hr⟩ := Option.isSome_iff_exists.1 hl
          obtain ⟨c, -, h2⟩ := hres (a, r) (lookup_mem hr) a
          have hc : chainNamed h s a = .ok (a, c) := by simp only [chainNamed, hr, h2]
          have hn' : n ∈ l := by
            rcases List.mem_cons.1 hn with rfl | h'
            · exact absurd ha hno
            · exact h'
          rw [hc, ih hn']
          rfl
        · have hl : s.chains.lookup a = none := by
            cases hx : s.chains.lookup a with
            | none => rfl
            | some r => exact absurd ((lookup_isSome_iff s.chains a).1 (by rw [hx]; rfl)) ha
          have hc : chainNamed h s a = .error .key := by simp only [chainNamed, hl]
          rw [hc]
          rfl
    simp only [postChains, this]
    rfl

variable [Field K] [IsStrictOrderedRing K]

/-- **C72, partial.** For chains with default row labels the result has exactly one entry for each requested chain with a
posterior column, in order, and each is a sample of that chain of maximal posterior. Missing: chains with other row labels, one of
which is enough to lose the points of all chains (`C72_violated`). -/
theorem C72_points_partial (h : Heap K) (s : Consumer K) (arg : PostChains K) (d : List (String × Chain K))
    (hd : postChains h s arg = .ok d)
    (hc : ∀ e ∈ d, ∃ a : Args K, a.samples.WF ∧ Chain.make a = .ok e.2 ∧ DefaultIndex e.2.samples) :
    ∃ res, getMaxPosteriors h s arg = .ok res ∧
      res.map Prod.fst = (d.filter fun e => HasPosterior e.2).map Prod.fst ∧
      ∀ e ∈ res, ∃ (c : Chain K) (p : List K) (j : Nat), (e.1, c) ∈ d ∧ c.samples.get c.posteriorColumn = .ok p ∧ p[j]? = some e.2.logPosterior ∧
        (∀ x ∈ p, x ≤ e.2.logPosterior) ∧ e.2.coordinate.map Prod.fst = c.plottingColumns ∧
        ∀ n x, (n, x) ∈ e.2.coordinate → ∃ v, c.samples.get n = .ok v ∧ v[j]? = some x := by
  have hpt : ∀ e ∈ d, ∃ p, e.2.maxPosteriorPoint = .ok p := by
    intro e he
    obtain ⟨a, h1, h2, h3⟩ := hc e he
    by_cases hp : HasPosterior e.2
    · obtain ⟨p, hp⟩ := get_ok_of_mem hp
      obtain ⟨m, j, hm, -⟩ := C12_max_posterior_partial a e.2 h1 h2 h3 p hp
      exact ⟨_, hm⟩
    · exact ⟨none, (C12_none_iff e.2).2 hp⟩
  obtain ⟨res, hr⟩ := postLoop_ok hpt
  obtain ⟨r1, r2⟩ := postLoop_spec hr
  refine ⟨res, by simp only [getMaxPosteriors, hd]; exact hr, r1, fun e he => ?_⟩
  obtain ⟨c, hcd, hm⟩ := r2 e he
  obtain ⟨a, h1, h2, h3⟩ := hc _ hcd
  have hp : HasPosterior c := by
    by_contra hn
    rw [(C12_none_iff c).2 hn] at hm
    cases hm
  obtain ⟨p, hp⟩ := get_ok_of_mem hp
  obtain ⟨m, j, hm', g1, g2, g3, g4⟩ := C12_max_posterior_partial a c h1 h2 h3 p hp
  rw [hm] at hm'
  cases hm'
  exact ⟨c, p, j, hcd, hp, g1, g2, g3, g4⟩

omit [Field K] [IsStrictOrderedRing K] in
/-- One chain whose point cannot be found (for instance a walker returned by `divide`, `C12_divided_walkers_fail`) and the points
of all chains are lost. -/
theorem postLoop_error {d : List (String × Chain K)} {n : String} {c : Chain K} (hc : (n, c) ∈ d) {e : Err}
    (he : c.maxPosteriorPoint = .error e) : ¬ ∃ res, postLoop d = .ok res := by
  rintro ⟨res, hr⟩
  induction d generalizing res with
  | nil => cases hc
  | cons x d ih =>
    simp only [postLoop] at hr
    rw [bind_ok_iff] at hr
    obtain ⟨p, hp, hr⟩ := hr
    rw [bind_ok_iff] at hr
    obtain ⟨r, hr, -⟩ := hr
    rcases List.mem_cons.1 hc with rfl | hc
    · rw [he] at hp; cases hp
    · exact ih hc r hr

/-- **C72** is violated: if a chain with default row labels, a posterior column and no `shift_params` is divided, and a walker
after the first is registered, then no maximum posterior points are returned for any chain. -/
theorem C72_violated (a : Args K) (c : Chain K) (hwf : a.samples.WF) (hshift : setting a .shiftParams = false)
    (hm : Chain.make a = .ok c) (hidx : DefaultIndex c.samples) (hp : c.posteriorColumn ∈ c.samples.columns)
    (cs : List (Chain K)) (hcs : c.divide = .ok cs) (i : Nat) (hi0 : 0 < i) (hi : i < cs.length)
    (h : Heap K) (s : Consumer K) (n : String) (r : Ref) (hr : (n, r) ∈ s.chains) (hh : h[r]? = some cs[i]) :
    ¬ ∃ res, getMaxPosteriors h s .all = .ok res := by
  rintro ⟨res, hres⟩
  simp only [getMaxPosteriors] at hres
  rw [bind_ok_iff] at hres
  obtain ⟨d, hd, hres⟩ := hres
  obtain ⟨x, hx, hy⟩ := mapM_ok_mem hd hr
  have : x = (n, cs[i]) := by
    simp only [registered, hh] at hy
    cases hy; rfl
  exact postLoop_error (this ▸ hx) (C12_divided_walkers_fail a c hwf hshift hm hidx hp cs hcs i hi0 hi) ⟨res, hres⟩

end

/-! ### C73 -/

/-- A column name that the code does not take for weights or posterior. -/
def Spec.PlainName (n : String) : Prop := pyLower n ∉ ["weight", "weights", "posterior", "posteriors", "log_weights",
  "log_posterior", "log_posteriors"]

theorem eq_of_keys {α β : Type} {l d : List (α × β)} (hk : l.map Prod.fst = d.map Prod.fst) (hd : (d.map Prod.fst).Nodup)
    (h : ∀ e ∈ l, e ∈ d) : l = d := by
  induction d generalizing l with
  | nil => simpa using hk
  | cons x d ih =>
    cases l with
    | nil => simp at hk
    | cons y l =>
      simp only [List.map_cons, List.cons.injEq, List.nodup_cons] at hk hd
      have hy : y = x := by
        rcases List.mem_cons.1 (h y (List.mem_cons_self ..)) with hy | hy
        · exact hy
        · exact absurd (List.mem_map.2 ⟨y, hy, hk.1⟩) hd.1
      rw [hy, ih hk.2 hd.2 fun e he => ?_]
      rcases List.mem_cons.1 (h e (List.mem_cons_of_mem _ he)) with he' | he'
      · exact absurd (by rw [← he', ← hk.2]; exact List.mem_map.2 ⟨e, he, rfl⟩) hd.1
      · exact he'

section
variable {K : Type} [Field K] [LinearOrder K] [IsStrictOrderedRing K]

/-- The one-row table of a marker. -/
def markerFrame (location : List (String × K)) : Frame K where
  index := [.int 0]
  cols := location.map (fun e => (e.1, [e.2])) ++ [("weight", [1]), ("log_posterior", [1])]

omit [LinearOrder K] [IsStrictOrderedRing K] in
theorem markerFrame_columns (location : List (String × K)) :
    (markerFrame location).columns = location.map Prod.fst ++ ["weight", "log_posterior"] := by
  simp [markerFrame, Frame.columns, Function.comp_def]

omit [LinearOrder K] [IsStrictOrderedRing K] in
theorem markerFrame_WF {location : List (String × K)} (hn : (location.map Prod.fst).Nodup)
    (hp : ∀ e ∈ location, PlainName e.1) : (markerFrame location).WF := by
  have hno : ∀ w ∈ ["weight", "log_posterior"], w ∉ location.map Prod.fst := by
    intro w hw hm
    obtain ⟨e, he, rfl⟩ := List.mem_map.1 hm
    have := hp e he
    revert this
    simp only [List.mem_cons, List.not_mem_nil, or_false] at hw
    rcases hw with hw | hw <;> rw [hw] <;> unfold PlainName <;> decide +kernel
  refine ⟨?_, ?_⟩
  · change (markerFrame location).columns.Nodup
    rw [markerFrame_columns, List.nodup_append]
    exact ⟨hn, by decide, fun x hx y hy hxy => hno y hy (hxy ▸ hx)⟩
  · intro c hc
    simp only [markerFrame, List.mem_append, List.mem_map, List.mem_cons, List.not_mem_nil, or_false] at hc
    rcases hc with ⟨e, -, rfl⟩ | rfl | rfl <;> rfl

omit [LinearOrder K] [IsStrictOrderedRing K] in
theorem markerArgs_samples {location : List (String × K)} (hp : ∀ e ∈ location, PlainName e.1) (name : String)
    (color : Option String) (size : K) (style : String) (alpha : K) (kwargs : List (Kwarg K)) :
    (Consumer.markerArgs (location.map fun e => (e.1, .fin e.2)) name color size style alpha kwargs).samples =
      (markerFrame location).toRaw := by
  have hno : ∀ w ∈ ["weight", "log_posterior"], w ∉ location.map Prod.fst := by
    intro w hw hm
    obtain ⟨e, he, rfl⟩ := List.mem_map.1 hm
    have := hp e he
    revert this
    simp only [List.mem_cons, List.not_mem_nil, or_false] at hw
    rcases hw with hw | hw <;> rw [hw] <;> unfold PlainName <;> decide +kernel
  have h1 := hno "weight" (by simp)
  have h2 := hno "log_posterior" (by simp)
  have e1 : ((location.map fun e => (e.1, (Flt.fin e.2 : Flt K))).map fun e => (e.1, [e.2])).map Prod.fst =
      location.map Prod.fst := by simp [Function.comp_def]
  simp only [Consumer.markerArgs]
  have e2 : dictSet ((location.map fun e => (e.1, (Flt.fin e.2 : Flt K))).map fun e => (e.1, [e.2])) "weight" [Flt.fin 1] =
      ((location.map fun e => (e.1, (Flt.fin e.2 : Flt K))).map fun e => (e.1, [e.2])) ++ [("weight", [Flt.fin 1])] := by
    rw [dictSet, if_neg (by rw [e1]; exact h1)]
  rw [e2, dictSet, if_neg (by
    rw [List.map_append, e1]
    simp only [List.map_cons, List.map_nil, List.mem_append, List.mem_singleton]
    rintro (h | h)
    · exact h2 h
    · revert h; decide)]
  simp [markerFrame, Frame.toRaw]

/-- **C73.** The point of a marker, as plotted for its chain, is its location: the same parameters with the same values, in the
same order (names that are not taken for weights or posterior; no `shift_params`; no location coordinate used as colour
parameter of a cloud). -/
theorem C73_marker (location : List (String × K)) (hn : (location.map Prod.fst).Nodup) (hp : ∀ e ∈ location, PlainName e.1)
    (name : String) (color : Option String) (size : K) (style : String) (alpha : K) (kwargs : List (Kwarg K)) (c : Chain K)
    (hc : Chain.make (Consumer.markerArgs (location.map fun e => (e.1, .fin e.2)) name color size style alpha kwargs) = .ok c)
    (hs : setting (Consumer.markerArgs (location.map fun e => (e.1, .fin e.2)) name color size style alpha kwargs)
      .shiftParams = false)
    (hcol : c.cfg .plotCloud = false ∨ ∀ e ∈ location, c.cfg .colorParam ≠ some e.1) :
    ∃ m, c.maxPosteriorPoint = .ok (some m) ∧ m.coordinate = location ∧ m.logPosterior = 1 := by
  have hsam := markerArgs_samples hp name color size style alpha kwargs
  have hwf := markerFrame_WF hn hp
  obtain ⟨col, raw, f0, f1, h1, h2, h3, h4, h5, h6, h7, h8, h9, h10, hceq⟩ := Chain.make_ok_iff.1 hc
  have hw : c.weightColumn = "weight" := by rw [hceq]; rfl
  have hpo : c.posteriorColumn = "log_posterior" := by rw [hceq]; rfl
  have hcs : c.samples = markerFrame location := (make_toRaw hwf hsam (by
    rw [markerFrame_columns]; simp [Consumer.markerArgs]) hc).2 hs
  have hget : c.samples.get c.posteriorColumn = .ok [1] := by
    rw [hcs, hpo]
    exact get_of_mem hwf.1 (by simp [markerFrame])
  obtain ⟨m, j, hm, g1, -, g3, g4⟩ := C12_max_posterior_partial _ c (by rw [hsam]; exact toRaw_WF.2 hwf) hc
    (by rw [hcs]; rfl) [1] hget
  have hj : j = 0 := by
    obtain ⟨hj, -⟩ := List.getElem?_eq_some_iff.1 g1
    simpa using hj
  subst hj
  have hlp : m.logPosterior = 1 := by simpa using g1.symm
  have hdata : c.dataColumns = location.map Prod.fst := by
    rw [Chain.dataColumns, hcs, markerFrame_columns, List.filter_append, hw, hpo, List.filter_eq_self.2, List.filter_eq_nil_iff.2,
      List.append_nil]
    · simp
    · intro n hnm
      obtain ⟨e, he, rfl⟩ := List.mem_map.1 hnm
      have := hp e he
      have hx1 : e.1 ≠ "weight" := by
        intro hx; revert this; rw [hx]; unfold PlainName; decide +kernel
      have hx2 : e.1 ≠ "log_posterior" := by
        intro hx; revert this; rw [hx]; unfold PlainName; decide +kernel
      simp only [hx1, hx2, Bool.and_eq_true, Bool.not_eq_true', Bool.or_eq_false_iff, beq_eq_false_iff_ne, ne_eq,
        not_false_eq_true, and_self, true_and, decide_eq_false_iff_not]
      exact this
  have hplot : c.plottingColumns = location.map Prod.fst := by
    rw [Chain.plottingColumns, hdata]
    split
    · rfl
    · rename_i hcl
      rw [List.filter_eq_self]
      intro n hnm
      obtain ⟨e, he, rfl⟩ := List.mem_map.1 hnm
      rcases hcol with h | h
      · simp [h] at hcl
      · simpa using fun hx => h e he hx.symm
  refine ⟨m, hm, eq_of_keys (g3.trans hplot) hn fun e he => ?_, hlp⟩
  obtain ⟨v, hv, hv0⟩ := g4 e.1 e.2 he
  have hmem : e.1 ∈ location.map Prod.fst := by
    rw [← hplot, ← g3]; exact List.mem_map.2 ⟨e, he, rfl⟩
  obtain ⟨x, hx, hxe⟩ := List.mem_map.1 hmem
  have : c.samples.get e.1 = .ok [x.2] := by
    rw [hcs, ← hxe]
    exact get_of_mem hwf.1 (by
      simp only [markerFrame, List.mem_append, List.mem_map]
      exact Or.inl ⟨x, hx, rfl⟩)
  rw [this] at hv
  cases hv
  have h2 : x.2 = e.2 := by simpa using hv0
  have : e = x := Prod.ext hxe.symm h2.symm
  rw [this]; exact hx

end

/-! ### Examples -/

/-- A marker at `a = 2`, `b = 5`. -/
def markerDemo : Args ℚ := Consumer.markerArgs ([("a", 2), ("b", 5)].map fun e => (e.1, .fin e.2)) "m" none 20 "." 1 []

theorem markerDemo_make : ∃ c, Chain.make markerDemo = .ok c ∧ c.samples = markerFrame [("a", 2), ("b", 5)] ∧
    c.cfg .plotCloud = false ∧ c.posteriorColumn = "log_posterior" :=
  ⟨_, Chain.make_ok_iff.2 ⟨none, (markerFrame [("a", 2), ("b", 5)]).toRaw, markerFrame [("a", 2), ("b", 5)],
    markerFrame [("a", 2), ("b", 5)], by decide +kernel, by decide +kernel, by decide +kernel, by decide +kernel,
    by decide +kernel, by decide +kernel, by decide +kernel, by decide +kernel, by decide +kernel, by decide +kernel, rfl⟩, rfl,
    by decide +kernel, rfl⟩

/-- The hypotheses of `C73_marker` are met. -/
example : ∃ c m, Chain.make markerDemo = .ok c ∧ c.maxPosteriorPoint = .ok (some m) ∧ m.coordinate = [("a", 2), ("b", 5)] := by
  obtain ⟨c, hc, -, hcl, -⟩ := markerDemo_make
  obtain ⟨m, h1, h2, -⟩ := C73_marker [("a", (2 : ℚ)), ("b", 5)] (by decide) (by unfold PlainName; decide +kernel) "m" none 20 "." 1
    [] c hc (by decide +kernel) (Or.inl hcl)
  exact ⟨c, m, hc, h1, h2⟩

/-- The hypotheses of `C72_requested` and `C72_points_partial` are met: a consumer with a marker. -/
example : ∃ c res, Chain.make markerDemo = .ok c ∧
    getMaxPosteriors [c] ({ chains := [("m", 0)] } : Consumer ℚ) .all = .ok res ∧ res.map Prod.fst = ["m"] := by
  obtain ⟨c, hc, hs, hcl, hpo⟩ := markerDemo_make
  have hd : postChains [c] ({ chains := [("m", 0)] } : Consumer ℚ) .all = .ok [("m", c)] := rfl
  obtain ⟨res, h1, h2, -⟩ := C72_points_partial [c] ({ chains := [("m", 0)] } : Consumer ℚ) .all [("m", c)] hd (by
    intro e he
    obtain rfl : e = ("m", c) := by simpa using he
    exact ⟨markerDemo, ⟨by decide +kernel, by decide +kernel⟩, hc, by rw [hs]; rfl⟩)
  refine ⟨c, res, hc, h1, ?_⟩
  rw [h2]
  have : HasPosterior c := by rw [HasPosterior, hs, hpo]; decide +kernel
  simp [this]

/-- The hypotheses of `C72_violated` are met: the second walker of a divided chain is registered. -/
example : ∃ c cs, Chain.make maxDemo = .ok c ∧ c.divide = .ok cs ∧
    ¬ ∃ res, getMaxPosteriors cs ({ chains := [("first", 0), ("second", 1)] } : Consumer ℚ) .all = .ok res := by
  have hwf : maxDemo.samples.WF := ⟨by decide, by simp [maxDemo]⟩
  have hs : setting maxDemo .shiftParams = false := by decide +kernel
  let f : Frame ℚ := { index := [.int 0, .int 1, .int 2, .int 3], cols := [("a", [5, 7, 1, 2]),
      ("log_posterior", [0, -10, 3, 3]), ("weight", [1, 1, 1, 1])] }
  have hm := (Chain.make_ok_iff (a := maxDemo)).2 ⟨none, _, f, f,
    by decide +kernel, by decide +kernel, rfl, rfl, by decide +kernel,
    by decide +kernel, by decide +kernel, by decide +kernel, by decide +kernel, by decide +kernel,
    rfl⟩
  obtain ⟨cs, h1, h2, -⟩ := C10_divide_lossless maxDemo _ hwf hs hm (by decide) rfl
  have hl : 1 < cs.length := by rw [h2]; decide
  refine ⟨_, cs, hm, h1, C72_violated maxDemo _ hwf hs hm (by simp [DefaultIndex, List.range, List.range.loop, f])
    (by decide +kernel) cs h1 1 (by simp) hl cs _ "second" 1 (by simp) (List.getElem?_eq_getElem hl)⟩

end CC
