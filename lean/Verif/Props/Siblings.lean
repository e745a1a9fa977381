import Verif.Props.Override
import Verif.Lemmas.PlotDemo

/-! # C124: colours tell chains apart, also after chains are added or removed -/

namespace CC
open Spec

/-- The same chain with the same settings, besides those of the shading. -/
def Spec.SameButShading (e e' : Chain ℝ) : Prop :=
  e' = e.withCfg e'.cfg ∧ ∀ k, k ∉ [Key.shade, .barShade, .shadeAlpha] → e'.cfg k = e.cfg k

/-- `l'` are the chains `l` under the same names, with the same settings besides those of the shading. -/
def Spec.KeptBy (l l' : List (String × Chain ℝ)) : Prop :=
  List.Forall₂ (fun e e' => e.1 = e'.1 ∧ SameButShading e.2 e'.2) l l'

/-! ### the chains used, from the copies -/

/-- The entries of the final dictionary. -/
noncomputable def finalEntries (n : Nat) (ov : Option (Config ℝ)) (cs : List (String × Chain ℝ)) (u : Nat) : List (String × Chain ℝ) :=
  (cs.map Prod.fst).zip (resolvedChains n ov (cs.map Prod.snd) u)

theorem finalEntries_append (n : Nat) (ov : Option (Config ℝ)) (as bs : List (String × Chain ℝ)) (u : Nat) :
    finalEntries n ov (as ++ bs) u = finalEntries n ov as u ++ finalEntries n ov bs (u + uncoloured (as.map Prod.snd)) := by
  induction as generalizing u with
  | nil => simp [finalEntries, resolvedChains, uncoloured]
  | cons a as ih =>
    have h := ih (if a.2.cfg .color = none then u + 1 else u)
    simp only [finalEntries] at h ⊢
    simp only [List.cons_append, List.map_cons, resolvedChains, List.zip_cons_cons, h]
    congr 4
    by_cases hc : a.2.cfg .color = none
    · simp [uncoloured, hc]; omega
    · simp [uncoloured, hc]

theorem finalDict_entries {h : Heap ℝ} {s : Consumer ℝ} (hu : uncoloured (chainsOf h s) ≤ 88) :
    finalDict h s = .ok (finalEntries (numContourChains h s) s.override (copyChains h s) 0) := finalDict_eq h s hu

theorem resolved_shading (ov : Option (Config ℝ)) (user : List Key) (n n' : Nat) (c : Cfg ℝ) (col : String) {k : Key}
    (hk : k ∉ [Key.shade, .barShade, .shadeAlpha]) : Spec.resolved ov user n c col k = Spec.resolved ov user n' c col k := by
  have : auto n c col k = auto n' c col k := by
    cases k <;> first | rfl | simp at hk
  simp only [Spec.resolved, this]

theorem finalEntries_kept (n n' : Nat) (ov : Option (Config ℝ)) (cs : List (String × Chain ℝ)) (u : Nat) :
    KeptBy (finalEntries n ov cs u) (finalEntries n' ov cs u) := by
  induction cs generalizing u with
  | nil => exact .nil
  | cons a cs ih =>
    refine .cons ⟨rfl, rfl, fun k hk => ?_⟩ (ih _)
    exact resolved_shading ov _ n' n _ _ hk

theorem copyChains_add {h : Heap ℝ} {s s' : Consumer ℝ} {r : Ref} {c : Chain ℝ} (hr : h[r]? = some c)
    (hs : s.addChain h r = .ok s') : copyChains h s' = copyChains h s ++ [(c.name, c)] ∧ s'.override = s.override := by
  simp only [Consumer.addChain, hr] at hs
  split at hs
  · cases hs
  · rename_i hn
    cases hs
    rw [dictSet_new hn]
    simp [copyChains, List.filterMap_append, hr]

theorem numContour_add {h : Heap ℝ} {s s' : Consumer ℝ} {r : Ref} {c : Chain ℝ} (hr : h[r]? = some c)
    (hs : s.addChain h r = .ok s') :
    numContourChains h s' = numContourChains h s + if c.cfg .plotContour then 1 else 0 := by
  rw [numContourChains_copies, numContourChains_copies, (copyChains_add hr hs).1, List.filter_append, List.length_append]
  cases hp : (c.cfg .plotContour : Bool) <;> simp [hp]

/-- **C124** (adding). A further chain leaves the settings of all others as they are, besides their shading; if it draws no
contours, or stays below five chains that do, the other chains are shaded or not as before. -/
theorem C124_added {h : Heap ℝ} {s s' : Consumer ℝ} {r : Ref} {c : Chain ℝ} (hr : h[r]? = some c)
    (hs : s.addChain h r = .ok s') (hu : uncoloured (chainsOf h s') ≤ 88) :
    ∃ d d' new, finalDict h s = .ok d ∧ finalDict h s' = .ok (d' ++ [new]) ∧ new.1 = c.name ∧ KeptBy d d' ∧
      (c.cfg .plotContour = false → d' = d) ∧
      (numContourChains h s + 1 < 5 → List.Forall₂ (fun e e' => e'.2.cfg .shade = e.2.cfg .shade ∧
        e'.2.cfg .barShade = e.2.cfg .barShade) d d') := by
  obtain ⟨hc, ho⟩ := copyChains_add hr hs
  have hco : chainsOf h s' = chainsOf h s ++ [c] := by rw [chainsOf, hc, List.map_append]; rfl
  have hu0 : uncoloured (chainsOf h s) ≤ 88 := by
    rw [hco] at hu
    simp only [uncoloured, List.filter_append, List.length_append] at hu ⊢
    omega
  have hn := numContour_add hr hs
  refine ⟨_, finalEntries (numContourChains h s') s.override (copyChains h s) 0,
    (c.name, c.withCfg (Spec.resolved s.override c.userSet (numContourChains h s') c.cfg
      (autoColours.getD (0 + uncoloured ((copyChains h s).map Prod.snd)) ""))), finalDict_entries hu0, ?_, ?_, ?_, ?_, ?_⟩
  · rw [finalDict_entries hu, hc, ho, finalEntries_append]
    rfl
  · rfl
  · exact finalEntries_kept _ _ _ _ _
  · intro hp
    rw [hn, hp]
    rfl
  · intro hlt
    have hlt' : numContourChains h s' < 5 := by rw [hn]; split <;> omega
    have hlt0 : numContourChains h s < 5 := by omega
    generalize numContourChains h s = n at hlt0
    generalize numContourChains h s' = n' at hlt'
    generalize 0 = u
    clear hc hn hu hu0 hco
    induction copyChains h s generalizing u with
    | nil => exact .nil
    | cons a cs ih =>
      refine .cons ?_ (ih _)
      simp only [Chain.withCfg, Spec.resolved, auto, hlt', hlt0, and_self]

/-- **C124** (adding a marker). A marker leaves every setting of all chains as it is. -/
theorem C124_marker {h h' : Heap ℝ} {s s' : Consumer ℝ} (hv : s.Valid h) {location : List (String × Flt ℝ)} {name : String}
    {color : Option String} {size : ℝ} {style : String} {alpha : ℝ} {kw : List (Kwarg ℝ)} (hkw : .plotContour ∉ kw.map (·.1))
    (hs : s.addMarker h (Consumer.markerArgs location name color size style alpha kw) = .ok (h', s'))
    (hu : uncoloured (chainsOf h' s') ≤ 88) :
    ∃ d new, finalDict h s = .ok d ∧ finalDict h' s' = .ok (d ++ [new]) ∧ new.1 = name := by
  simp only [Consumer.addMarker, bind_ok_iff, pure_ok_iff] at hs
  obtain ⟨c, hc, s1, h1, he⟩ := hs
  cases he
  have hr : (h ++ [c])[h.length]? = some c := by simp
  have hp : (c.cfg .plotContour : Bool) = false := by
    obtain ⟨col, raw, f0, f, -, -, -, -, -, -, -, -, -, -, rfl⟩ := Chain.make_ok_iff.1 hc
    simp only
    rw [resolveStatistics_other _ (by intro h; cases h)]
    simp only [Cfg.set, Function.update]
    rw [dif_neg (by intro h; cases h)]
    simp only [Consumer.markerArgs]
    have e : ∀ kw', Key.plotContour ∉ kw'.map (·.1) → ((Cfg.default ℝ).apply ([⟨.markerSize, size⟩, ⟨.markerStyle, style⟩,
        ⟨.markerAlpha, alpha⟩, ⟨.plotContour, false⟩, ⟨.plotPoint, true⟩] ++ kw')) .plotContour = false := by
      intro kw' hk
      rw [apply_append _ (Cfg.default ℝ), if_neg hk]
      rfl
    apply e
    cases color with
    | none => exact hkw
    | some col => simpa using hkw
  have hname : c.name = name := by
    obtain ⟨col, raw, f0, f, -, -, -, -, -, -, -, -, -, -, rfl⟩ := Chain.make_ok_iff.1 hc
    rfl
  obtain ⟨d, d', new, e1, e2, e3, -, e4, -⟩ := C124_added hr h1 hu
  have hsame : copyChains (h ++ [c]) s = copyChains h s := by
    simp only [copyChains]
    apply List.filterMap_congr
    intro e he
    rw [List.getElem?_append_left (hv e he)]
  have hn : numContourChains (h ++ [c]) s = numContourChains h s := by
    rw [numContourChains_copies, numContourChains_copies, hsame]
  rw [e4 hp] at e2
  refine ⟨d, new, ?_, e2, e3.trans hname⟩
  have hu0 : uncoloured (chainsOf (h ++ [c]) s) ≤ 88 := by
    rw [chainsOf, (copyChains_add hr h1).1] at hu
    simp only [uncoloured, chainsOf, List.map_append, List.filter_append, List.length_append] at hu ⊢
    omega
  rw [finalDict_entries hu0] at e1
  rw [← e1, finalDict_entries (by rw [chainsOf, ← hsame]; exact hu0), hsame, hn]

/-! ### removing -/

theorem copyChains_remove {h : Heap ℝ} {s s' : Consumer ℝ} {n : String} (hs : s.removeName n = .ok s')
    (hnd : (s.chains.map Prod.fst).Nodup) {pre post : List (String × Chain ℝ)} {c : Chain ℝ}
    (hc : copyChains h s = pre ++ (n, c) :: post) : copyChains h s' = pre ++ post ∧ s'.override = s.override := by
  simp only [Consumer.removeName] at hs
  split at hs
  · cases hs
    refine ⟨?_, rfl⟩
    have h1 : copyChains h { s with chains := dictPop s.chains n } = (copyChains h s).filter fun e => e.1 ≠ n := by
      simp only [copyChains, dictPop, List.filter_filterMap, List.filterMap_filter]
      apply List.filterMap_congr
      intro e _
      by_cases he : e.1 = n
      · cases h[e.2]? <;> simp [he, Option.filter]
      · cases h[e.2]? <;> simp [he, Option.filter]
    have h2 : ((copyChains h s).map Prod.fst).Nodup := by
      have : ((copyChains h s).map Prod.fst).Sublist (s.chains.map Prod.fst) := by
        simp only [copyChains]
        induction s.chains with
        | nil => simp
        | cons e es ih =>
          rw [List.filterMap_cons]
          cases h[e.2]? with
          | none => exact ih.cons _
          | some c => exact ih.cons_cons _
      exact this.nodup hnd
    rw [h1, hc]
    rw [hc, List.map_append, List.map_cons, List.nodup_append] at h2
    obtain ⟨-, h3, h4⟩ := h2
    have ha : ∀ e ∈ pre, e.1 ≠ n := fun e he => h4 _ (List.mem_map_of_mem he) _ (by simp)
    have hb : ∀ e ∈ post, e.1 ≠ n := fun e he heq => (List.nodup_cons.1 h3).1 (List.mem_map.2 ⟨e, he, heq⟩)
    rw [List.filter_append, List.filter_cons_of_neg (by simp), List.filter_eq_self.2 (by simpa using ha),
      List.filter_eq_self.2 (by simpa using hb)]
  · cases hs

theorem uncoloured_append (a b : List (Chain ℝ)) : uncoloured (a ++ b) = uncoloured a + uncoloured b := by
  simp [uncoloured, List.filter_append]

/-- **C124** (removing), partial. Without one of the chains the chains before it keep their settings besides the shading, and so do
those after it if the chain had a colour of its own. Missing: those after a chain with an automatic colour, for which
it is false (`C124_violated_removed`). -/
theorem C124_removed_partial {h : Heap ℝ} {s s' : Consumer ℝ} {n : String} (hs : s.removeName n = .ok s')
    (hnd : (s.chains.map Prod.fst).Nodup) {pre post : List (String × Chain ℝ)} {c : Chain ℝ}
    (hc : copyChains h s = pre ++ (n, c) :: post) (hu : uncoloured (chainsOf h s) ≤ 88) :
    ∃ a x b a' b', finalDict h s = .ok (a ++ x :: b) ∧ finalDict h s' = .ok (a' ++ b') ∧ a.length = pre.length ∧ x.1 = n ∧
      KeptBy a a' ∧ (c.cfg .color ≠ none → KeptBy b b') := by
  obtain ⟨hc', ho⟩ := copyChains_remove hs hnd hc
  have hu' : uncoloured (chainsOf h s') ≤ 88 := by
    rw [chainsOf, hc, List.map_append, List.map_cons, uncoloured_append] at hu
    rw [chainsOf, hc', List.map_append, uncoloured_append]
    have : uncoloured (post.map Prod.snd) ≤ uncoloured (c :: post.map Prod.snd) := by
      simp only [uncoloured, List.filter_cons]; split <;> simp
    simp only at hu
    omega
  rw [finalDict_entries hu, finalDict_entries hu', hc, hc', ho, finalEntries_append, finalEntries_append]
  refine ⟨_, (n, c.withCfg _), finalEntries _ _ post _, _, _, rfl, rfl, ?_, rfl, finalEntries_kept _ _ _ _ _, ?_⟩
  · simp [finalEntries, resolvedChains_length]
  · intro hcol
    rw [if_neg hcol]
    exact finalEntries_kept _ _ _ _ _

/-- **C124** is violated whenever a chain with an automatic colour is removed: the next chain with an automatic colour changes to
the colour of the removed one. -/
theorem C124_violated_removed {h : Heap ℝ} {s s' : Consumer ℝ} {n : String} (hs : s.removeName n = .ok s')
    (hnd : (s.chains.map Prod.fst).Nodup) {pre mid post : List (String × Chain ℝ)} {c e : Chain ℝ} {m : String}
    (hc : copyChains h s = pre ++ (n, c) :: (mid ++ (m, e) :: post)) (hu : uncoloured (chainsOf h s) ≤ 88)
    (hov : ∀ o, s.override = some o → .color ∉ o.userSet) (hcc : c.cfg .color = none ∧ .color ∉ c.userSet)
    (hec : e.cfg .color = none ∧ .color ∉ e.userSet) (hmid : ∀ x ∈ mid, x.2.cfg .color ≠ none) :
    ∃ d d' c1 e1 e2 col col2, finalDict h s = .ok d ∧ finalDict h s' = .ok d' ∧ (n, c1) ∈ d ∧ (m, e1) ∈ d ∧ (m, e2) ∈ d' ∧
      c1.cfg .color = some col ∧ e1.cfg .color = some col2 ∧ e2.cfg .color = some col ∧ col2 ≠ col := by
  obtain ⟨hc', ho⟩ := copyChains_remove hs hnd hc
  have h0 : uncoloured (mid.map Prod.snd) = 0 := by
    rw [uncoloured, List.length_eq_zero_iff, List.filter_eq_nil_iff]
    intro x hx
    obtain ⟨y, hy, rfl⟩ := List.mem_map.1 hx
    simpa using hmid y hy
  have hcount : uncoloured (chainsOf h s) = uncoloured (pre.map Prod.snd) + 1 + (1 + uncoloured (post.map Prod.snd)) := by
    rw [chainsOf, hc]
    simp only [List.map_append, List.map_cons, uncoloured_append]
    have : ∀ (x : Chain ℝ) (l : List (Chain ℝ)), x.cfg .color = none → uncoloured (x :: l) = 1 + uncoloured l := by
      intro x l hx; simp [uncoloured, hx]; omega
    rw [this _ _ hcc.1, uncoloured_append, h0, this _ _ hec.1]
    omega
  have hu' : uncoloured (chainsOf h s') ≤ 88 := by
    have : uncoloured (chainsOf h s') ≤ uncoloured (chainsOf h s) := by
      rw [chainsOf, chainsOf, hc, hc']
      simp only [List.map_append, List.map_cons, uncoloured_append]
      have : ∀ (x : Chain ℝ) (l : List (Chain ℝ)), uncoloured l ≤ uncoloured (x :: l) := by
        intro x l; simp only [uncoloured, List.filter_cons]; split <;> simp
      have := this c (mid.map Prod.snd ++ e :: post.map Prod.snd)
      rw [uncoloured_append] at this
      omega
    omega
  have hres : ∀ (x : Chain ℝ) N col, x.cfg .color = none ∧ .color ∉ x.userSet →
      Spec.resolved s.override x.userSet N x.cfg col .color = some col := by
    intro x N col hx
    simp only [Spec.resolved, hx.2, if_false, auto, hx.1, if_true, Option.getD_some]
    cases hso : s.override with
    | none => rfl
    | some o => simp [hov o hso]
  set u := uncoloured (pre.map Prod.snd) with hudef
  have hmem : ∀ (N : Nat) (as bs : List (String × Chain ℝ)) (x : String × Chain ℝ),
      (x.1, x.2.withCfg (Spec.resolved s.override x.2.userSet N x.2.cfg (autoColours.getD (uncoloured (as.map Prod.snd)) ""))) ∈
        finalEntries N s.override (as ++ x :: bs) 0 := by
    intro N as bs x
    rw [finalEntries_append, Nat.zero_add]
    exact List.mem_append_right _ List.mem_cons_self
  have m1 := hmem (numContourChains h s) pre (mid ++ (m, e) :: post) (n, c)
  have m2 := hmem (numContourChains h s) (pre ++ (n, c) :: mid) post (m, e)
  have m3 := hmem (numContourChains h s') (pre ++ mid) post (m, e)
  have e2 : uncoloured ((pre ++ (n, c) :: mid).map Prod.snd) = u + 1 := by
    rw [List.map_append, List.map_cons, uncoloured_append]
    have : uncoloured (c :: mid.map Prod.snd) = uncoloured (mid.map Prod.snd) + 1 := by simp [uncoloured, hcc.1]
    simp only [this, h0, Nat.zero_add, hudef]
  have e3 : uncoloured ((pre ++ mid).map Prod.snd) = u := by
    rw [List.map_append, uncoloured_append, h0, Nat.add_zero]
  rw [← hc] at m1
  rw [List.append_assoc, List.cons_append, ← hc, e2] at m2
  rw [List.append_assoc, ← hc', e3] at m3
  have hd' := finalDict_entries hu'
  rw [ho] at hd'
  refine ⟨_, _, _, _, _, autoColours.getD u "", autoColours.getD (u + 1) "", finalDict_entries hu, hd', m1, m2, m3,
    hres c (numContourChains h s) _ hcc, hres e (numContourChains h s) _ hec, hres e (numContourChains h s') _ hec, ?_⟩
  have hl : u + 1 < autoColours.length := by rw [autoColours_length]; omega
  rw [List.getD_eq_getElem?_getD, List.getD_eq_getElem?_getD, List.getElem?_eq_getElem hl, List.getElem?_eq_getElem (by omega),
    Option.getD_some, Option.getD_some]
  intro heq
  have := (List.Nodup.getElem_inj_iff autoColours_nodup).1 heq
  omega

/-! ### given colours -/

/-- **C124** is violated by given colours: the automatic colour of a chain is the one given for another chain, if that is the colour
whose turn it is. -/
theorem C124_violated_given {h : Heap ℝ} {s : Consumer ℝ} (hu : uncoloured (chainsOf h s) ≤ 88)
    (hov : ∀ o, s.override = some o → .color ∉ o.userSet) {i j : Nat} {n m : String} {c e : Chain ℝ}
    (hi : (copyChains h s)[i]? = some (n, c)) (hj : (copyChains h s)[j]? = some (m, e))
    (hec : e.cfg .color = none ∧ .color ∉ e.userSet)
    (hcc : c.cfg .color = some (autoColours.getD (uncoloured ((chainsOf h s).take j)) "")) :
    ∃ d c1 e1, finalDict h s = .ok d ∧ d[i]? = some (n, c1) ∧ d[j]? = some (m, e1) ∧ c1.cfg .color = e1.cfg .color := by
  have key : ∀ (i : Nat) (n : String) (c : Chain ℝ), (copyChains h s)[i]? = some (n, c) →
      (((copyChains h s).map Prod.fst).zip (resolvedChains (numContourChains h s) s.override (chainsOf h s) 0))[i]? =
        some (n, c.withCfg (Spec.resolved s.override c.userSet (numContourChains h s) c.cfg
          (autoColours.getD (0 + uncoloured ((chainsOf h s).take i)) ""))) := by
    intro i n c hi
    rw [List.getElem?_zip_eq_some, resolvedChains_getElem?, chainsOf, List.getElem?_map, List.getElem?_map, hi]
    exact ⟨rfl, rfl⟩
  refine ⟨_, _, _, finalDict_eq h s hu, key i n c hi, key j m e hj, ?_⟩
  have h1 : ∀ (x : Chain ℝ) col, Spec.resolved s.override x.userSet (numContourChains h s) x.cfg col .color =
      if .color ∈ x.userSet then x.cfg .color else (auto (numContourChains h s) x.cfg col .color).getD (x.cfg .color) := by
    intro x col
    simp only [Spec.resolved]
    cases hso : s.override with
    | none => rfl
    | some o => simp [hov o hso]
  simp only [Chain.withCfg]
  rw [h1, h1, if_neg hec.2]
  simp only [auto, hec.1, if_true, Option.getD_some, hcc, reduceCtorEq, if_false, Option.getD_none, ite_self, Nat.zero_add]

/-! ### concrete cases -/

/-- Chains of two rows, one without a colour and one called "blue". -/
theorem colour_chains : ∃ c e f : Chain ℝ,
    Chain.make { samples := singleFrame.toRaw, name := "x" } = .ok c ∧
    Chain.make { samples := singleFrame.toRaw, name := "y" } = .ok e ∧
    Chain.make { samples := singleFrame.toRaw, name := "z", config := [⟨.color, some "blue"⟩] } = .ok f ∧
    (c.name = "x" ∧ c.cfg .color = none ∧ c.userSet = []) ∧ (e.name = "y" ∧ e.cfg .color = none ∧ e.userSet = []) ∧
    (f.name = "z" ∧ f.cfg .color = some "#3b82f6") := by
  obtain ⟨c, hc, -⟩ := plain_chain (K := ℝ) singleFrame singleFrame_wf (by simp [singleFrame]) (w := [1, 1]) rfl (by simp) "x"
  obtain ⟨e, he, -⟩ := plain_chain (K := ℝ) singleFrame singleFrame_wf (by simp [singleFrame]) (w := [1, 1]) rfl (by simp) "y"
  have key : ∀ (n : String) (c : Chain ℝ), Chain.make { samples := singleFrame.toRaw, name := n } = .ok c →
      c.name = n ∧ c.cfg .color = none ∧ c.userSet = [] := by
    intro n c hc
    obtain ⟨col, raw, f0, f, h1, -, -, -, -, -, -, -, -, -, rfl⟩ := Chain.make_ok_iff.1 hc
    have h1' : col = none := by
      have : validateColor (((Cfg.default ℝ).apply []) .color) = .ok none := rfl
      rw [this] at h1
      exact (Except.ok.inj h1).symm
    subst h1'
    refine ⟨rfl, ?_, rfl⟩
    simp only
    rw [resolveStatistics_other _ (by intro h; cases h)]
    rfl
  have hv : validateColor (some "blue") = .ok (some "#3b82f6") := by decide +kernel
  obtain ⟨col, raw, f0, f, h1, h2, h3, h4, h5, h6, h7, h8, h9, h10, rfl⟩ := Chain.make_ok_iff.1 hc
  refine ⟨_, e, _, hc, he, Chain.make_ok_iff.2 ⟨some "#3b82f6", raw, f0, f, hv, h2, h3, h4, h5, h6, h7, h8, h9, ?_, rfl⟩,
    key _ _ hc, key _ _ he, rfl, ?_⟩
  · rfl
  · simp only
    rw [resolveStatistics_other _ (by intro h; cases h)]
    rfl

/-- `C124_added` applies: a second chain is added to the first. -/
example : ∃ (h : Heap ℝ) (s s' : Consumer ℝ) (c : Chain ℝ), h[1]? = some c ∧ s.addChain h 1 = .ok s' ∧ s.chains ≠ [] ∧
    uncoloured (chainsOf h s') ≤ 88 := by
  obtain ⟨c, e, f, -, -, -, hc, he, hf⟩ := colour_chains
  refine ⟨[c, e], { chains := [("x", 0)] }, { chains := [("x", 0), ("y", 1)] }, e, rfl, ?_, by simp, ?_⟩
  · simp [Consumer.addChain, he.1, dictSet]
  · simp [uncoloured, chainsOf, copyChains, hc.2, he.2]

/-- `C124_marker` applies. -/
example : ∃ (h h' : Heap ℝ) (s s' : Consumer ℝ), s.Valid h ∧ s.chains ≠ [] ∧
    s.addMarker h (Consumer.markerArgs [("a", .fin 1)] "m" none 10 "." 1 []) = .ok (h', s') ∧
    uncoloured (chainsOf h' s') ≤ 88 := by
  obtain ⟨c, e, f, -, -, -, hc, he, hf⟩ := colour_chains
  obtain ⟨m, hm, -, -, -, -, -, -, hn, hcfg⟩ := plain_chain_cfg (K := ℝ) false [⟨.markerSize, (10 : ℝ)⟩, ⟨.markerStyle, "."⟩,
      ⟨.markerAlpha, (1 : ℝ)⟩, ⟨.plotContour, false⟩, ⟨.plotPoint, true⟩] rfl
    (by change (0 : ℝ) ≤ 6827 / 10000 ∧ (6827 / 10000 : ℝ) ≤ 1; constructor <;> norm_num)
    (by change (1 : ℝ) ≤ 10; norm_num) rfl rfl (by intro h; cases h)
    ⟨[.int 0], [("a", [1]), ("weight", [1]), ("log_posterior", [1])]⟩ ⟨by decide, by simp⟩ (by simp) (w := [1]) rfl (by simp) "m" 1
    le_rfl (one_dvd _)
  have hm' : Chain.make (Consumer.markerArgs [("a", (.fin 1 : Flt ℝ))] "m" none 10 "." 1 []) = .ok m := hm
  refine ⟨[c], [c, m], { chains := [("x", 0)] }, { chains := [("x", 0), ("m", 1)] }, ?_, by simp, ?_, ?_⟩
  · intro e he
    simp at he
    simp [he]
  · simp only [Consumer.addMarker, hm']
    simp [Consumer.addChain, hn, dictSet, bind, Except.bind, pure, Except.pure]
  · simp only [uncoloured]
    exact (List.length_filter_le _ _).trans (by simp [chainsOf, copyChains])

/-- `C124_removed_partial` applies to a chain with a colour of its own, and `C124_violated_removed` to one without. -/
example : ∃ (h : Heap ℝ) (s s' : Consumer ℝ) (c e f : Chain ℝ), s.removeName "z" = .ok s' ∧ (s.chains.map Prod.fst).Nodup ∧
    copyChains h s = [("x", c)] ++ ("z", f) :: [("y", e)] ∧ uncoloured (chainsOf h s) ≤ 88 ∧ f.cfg .color ≠ none := by
  obtain ⟨c, e, f, -, -, -, hc, he, hf⟩ := colour_chains
  refine ⟨[c, e, f], { chains := [("x", 0), ("z", 2), ("y", 1)] }, { chains := [("x", 0), ("y", 1)] }, c, e, f, ?_, ?_, rfl, ?_, ?_⟩
  · simp [Consumer.removeName, dictPop]
  · simp
  · simp [uncoloured, chainsOf, copyChains, hc.2, he.2, hf.2]
  · rw [hf.2]; simp

example : ∃ (h : Heap ℝ) (s s' : Consumer ℝ) (c e f : Chain ℝ), s.removeName "x" = .ok s' ∧ (s.chains.map Prod.fst).Nodup ∧
    copyChains h s = [] ++ ("x", c) :: ([("z", f)] ++ ("y", e) :: []) ∧ uncoloured (chainsOf h s) ≤ 88 ∧ s.override = none ∧
    (c.cfg .color = none ∧ .color ∉ c.userSet) ∧ (e.cfg .color = none ∧ .color ∉ e.userSet) ∧ f.cfg .color ≠ none := by
  obtain ⟨c, e, f, -, -, -, hc, he, hf⟩ := colour_chains
  refine ⟨[c, e, f], { chains := [("x", 0), ("z", 2), ("y", 1)] }, { chains := [("z", 2), ("y", 1)] }, c, e, f, ?_, ?_, rfl, ?_,
    rfl, ?_, ?_, ?_⟩
  · simp [Consumer.removeName, dictPop]
  · simp
  · simp [uncoloured, chainsOf, copyChains, hc.2, he.2, hf.2]
  · simp [hc.2]
  · simp [he.2]
  · rw [hf.2]; simp

/-- `C124_violated_given` applies: a chain given the colour "blue" and one without a colour. -/
example : ∃ (h : Heap ℝ) (s : Consumer ℝ) (e f : Chain ℝ), uncoloured (chainsOf h s) ≤ 88 ∧ s.override = none ∧
    Chain.make { samples := singleFrame.toRaw, name := "z", config := [⟨.color, some "blue"⟩] } = .ok f ∧
    (copyChains h s)[0]? = some ("z", f) ∧ (copyChains h s)[1]? = some ("y", e) ∧
    (e.cfg .color = none ∧ .color ∉ e.userSet) ∧
    f.cfg .color = some (autoColours.getD (uncoloured ((chainsOf h s).take 1)) "") := by
  obtain ⟨c, e, f, -, -, hm, hc, he, hf⟩ := colour_chains
  refine ⟨[c, e, f], { chains := [("z", 2), ("y", 1)] }, e, f, ?_, rfl, hm, rfl, rfl, ?_, ?_⟩
  · simp [uncoloured, chainsOf, copyChains, he.2, hf.2]
  · simp [he.2]
  · simp [uncoloured, chainsOf, copyChains, hf.2, autoColours]

end CC
