import Verif.Props.Siblings
import Verif.Props.CompTable
import Verif.Props.ColumnOrder
import Verif.Props.Points

/-! # C133: the order in which chains are added carries no meaning

Chains may be added in any order: they have the same settings (but for automatic colours), and everything reported about them is the
same up to the order in which it is listed. -/

set_option linter.unusedSectionVars false

namespace CC
open Spec

/-- The same registered chains and the same override, the chains in another order. -/
structure Spec.OtherOrder {K : Type} (s s' : Consumer K) : Prop where
  chains : s'.chains.Perm s.chains
  override : s'.override = s.override

/-- The same chain with the same settings, besides its colour. -/
def Spec.SameButColour (e e' : Chain ℝ) : Prop := e' = e.withCfg e'.cfg ∧ ∀ k, k ≠ Key.color → e'.cfg k = e.cfg k

/-! ## Adding -/

/-- Adding several chains, one after the other. -/
def addAll {K : Type} (h : Heap K) (s : Consumer K) (rs : List Ref) : Res (Consumer K) := rs.foldlM (fun s r => s.addChain h r) s

theorem addAll_ok_iff {K : Type} {h : Heap K} {s s' : Consumer K} {rs : List Ref} : addAll h s rs = .ok s' ↔
    ∃ cs : List (Chain K), List.Forall₂ (fun r c => h[r]? = some c) rs cs ∧ (cs.map (·.name)).Nodup ∧
      (∀ c ∈ cs, c.name ∉ s.chains.map Prod.fst) ∧ s' = { s with chains := s.chains ++ (cs.map (·.name)).zip rs } := by
  induction rs generalizing s with
  | nil =>
    constructor
    · intro hs
      cases hs
      exact ⟨[], .nil, by simp, by simp, by simp⟩
    · rintro ⟨cs, h1, -, -, h4⟩
      cases h1
      simp only [List.map_nil, List.zip_nil_left, List.append_nil] at h4
      rw [h4]
      rfl
  | cons r rs ih =>
    simp only [addAll] at ih
    simp only [addAll, List.foldlM_cons, bind_ok_iff]
    constructor
    · rintro ⟨t, h1, h2⟩
      obtain ⟨cs, k1, k2, k3, k4⟩ := ih.1 h2
      unfold Consumer.addChain at h1
      split at h1
      · cases h1
      · rename_i c hc
        split at h1
        · cases h1
        · rename_i hn
          cases h1
          simp only [dictSet, if_neg hn, List.map_append, List.map_cons, List.map_nil, List.mem_append, List.mem_singleton, not_or] at k3 k4
          refine ⟨c :: cs, .cons hc k1, ?_, ?_, ?_⟩
          · rw [List.map_cons, List.nodup_cons]
            refine ⟨fun hm => ?_, k2⟩
            obtain ⟨c', hc', he⟩ := List.mem_map.1 hm
            exact (k3 c' hc').2 he
          · intro c' hc'
            rcases List.mem_cons.1 hc' with rfl | hc'
            · exact hn
            · exact (k3 c' hc').1
          · rw [k4]
            simp
    · rintro ⟨cs, h1, h2, h3, h4⟩
      cases h1 with
      | @cons _ c _ cs hc h1 =>
        have hn := h3 c List.mem_cons_self
        rw [List.map_cons, List.nodup_cons] at h2
        refine ⟨{ s with chains := s.chains ++ [(c.name, r)] }, ?_, ih.2 ⟨cs, h1, h2.2, ?_, ?_⟩⟩
        · simp only [Consumer.addChain, hc, if_neg hn, dictSet]
        · intro c' hc'
          simp only [List.map_append, List.map_cons, List.map_nil, List.mem_append, List.mem_singleton, not_or]
          refine ⟨h3 c' (List.mem_cons_of_mem _ hc'), fun he => h2.1 ?_⟩
          rw [← he]
          exact List.mem_map_of_mem hc'
        · rw [h4]
          simp

/-- **C133** (adding). If chains can be added in one order, they can be added in any other, and the same chains are registered. -/
theorem C133_added {K : Type} {h : Heap K} {s s' : Consumer K} {rs rs' : List Ref} (hp : rs'.Perm rs) (hs : addAll h s rs = .ok s') :
    ∃ t, addAll h s rs' = .ok t ∧ OtherOrder s' t ∧ t.truths = s'.truths := by
  obtain ⟨cs, h1, h2, h3, rfl⟩ := addAll_ok_iff.1 hs
  obtain ⟨cs', k1, k2⟩ := List.perm_comp_forall₂ hp h1
  refine ⟨_, addAll_ok_iff.2 ⟨cs', k1, (k2.map _).nodup_iff.2 h2, fun c hc => h3 c (k2.mem_iff.1 hc), rfl⟩, ⟨?_, rfl⟩, rfl⟩
  refine List.Perm.append_left _ ?_
  have key : ∀ {rs : List Ref} {cs : List (Chain K)}, List.Forall₂ (fun r c => h[r]? = some c) rs cs →
      (cs.map (·.name)).zip rs = rs.filterMap fun r => (h[r]?).map fun c => (c.name, r) := by
    intro rs cs hf
    induction hf with
    | nil => rfl
    | cons hh _ ih => rw [List.map_cons, List.zip_cons_cons, ih, List.filterMap_cons, hh]; rfl
  rw [key h1, key k1]
  exact hp.filterMap _

/-! ## Settings -/

section
variable {h : Heap ℝ} {s s' : Consumer ℝ} (ho : OtherOrder s s')
include ho

theorem order_copies : (copyChains h s').Perm (copyChains h s) := ho.chains.filterMap _

theorem order_contours : numContourChains h s' = numContourChains h s := (ho.chains.filter _).length_eq

theorem order_uncoloured : uncoloured (chainsOf h s') = uncoloured (chainsOf h s) :=
  (((order_copies ho).map Prod.snd).filter _).length_eq

end

theorem finalEntries_forall₂ (n : Nat) (ov : Option (Config ℝ)) (cs : List (String × Chain ℝ)) (u : Nat) :
    List.Forall₂ (fun e x => ∃ col, x = (e.1, e.2.withCfg (Spec.resolved ov e.2.userSet n e.2.cfg col))) cs (finalEntries n ov cs u) := by
  induction cs generalizing u with
  | nil => exact .nil
  | cons e cs ih =>
    have := ih (if e.2.cfg .color = none then u + 1 else u)
    simp only [finalEntries, List.map_cons, resolvedChains, List.zip_cons_cons] at this ⊢
    exact .cons ⟨_, rfl⟩ this

theorem resolved_colour {ov : Option (Config ℝ)} {user : List Key} {n : Nat} {c : Cfg ℝ} (col col' : String) {k : Key}
    (hk : k ≠ .color ∨ c .color ≠ none ∨ ∃ o, ov = some o ∧ .color ∈ o.userSet) :
    Spec.resolved ov user n c col k = Spec.resolved ov user n c col' k := by
  by_cases hc : k = .color
  · subst hc
    rcases hk with hk | hk | ⟨o, rfl, ho⟩
    · exact absurd rfl hk
    · simp only [Spec.resolved, auto, if_neg hk]
    · simp only [Spec.resolved, if_pos ho]
  · have : auto n c col k = auto n c col' k := by
      cases k <;> first | rfl | exact absurd rfl hc
    simp only [Spec.resolved, this]

/-- **C133, partial** (settings). In another order all chains have the same settings, besides the colour; also the same colours, if
every chain is given one or the override sets it. And colours run out in one order if and only if they do in the other. Missing:
automatic colours (`C133_violated`). -/
theorem C133_settings_partial {h : Heap ℝ} {s s' : Consumer ℝ} (ho : OtherOrder s s') :
    ((∃ d, finalDict h s' = .ok d) ↔ ∃ d, finalDict h s = .ok d) ∧
    ∀ d d', finalDict h s = .ok d → finalDict h s' = .ok d' →
      (∃ d₀, d₀.Perm d ∧ List.Forall₂ (fun e e' => e'.1 = e.1 ∧ SameButColour e.2 e'.2) d₀ d') ∧
      ((∀ e ∈ copyChains h s, e.2.cfg .color ≠ none ∨ ∃ o, s.override = some o ∧ .color ∈ o.userSet) → d'.Perm d) := by
  have hiff : ∀ t : Consumer ℝ, (∃ d, finalDict h t = .ok d) ↔ uncoloured (chainsOf h t) ≤ 88 := by
    intro t
    constructor
    · rintro ⟨d, hd⟩
      by_contra hu
      simp only [finalDict, (finalChains_eq h t).2 (by omega), bind, Except.bind] at hd
      cases hd
    · exact fun hu => ⟨_, finalDict_entries hu⟩
  refine ⟨by rw [hiff, hiff, order_uncoloured ho], fun d d' hd hd' => ?_⟩
  have hu := (hiff s).1 ⟨d, hd⟩
  have hu' := (hiff s').1 ⟨d', hd'⟩
  rw [finalDict_entries hu] at hd
  rw [finalDict_entries hu', order_contours ho, ho.override] at hd'
  cases hd
  cases hd'
  have h1 := finalEntries_forall₂ (numContourChains h s) s.override (copyChains h s) 0
  have h2 := finalEntries_forall₂ (numContourChains h s) s.override (copyChains h s') 0
  constructor
  · obtain ⟨d₀, k1, k2⟩ := List.perm_comp_forall₂ (order_copies ho (h := h)) h1
    refine ⟨d₀, k2, ?_⟩
    clear k2 h1
    generalize finalEntries (numContourChains h s) s.override (copyChains h s') 0 = d' at h2
    generalize copyChains h s' = cs at h2 k1
    induction k1 generalizing d' with
    | nil => cases h2; exact .nil
    | cons hh _ ih =>
      cases h2 with
      | cons hh' h2 =>
        refine .cons ?_ (ih _ h2)
        obtain ⟨col, rfl⟩ := hh
        obtain ⟨col', rfl⟩ := hh'
        exact ⟨rfl, rfl, fun k hk => resolved_colour _ _ (.inl hk)⟩
  · intro hcol
    have key : ∀ {cs x : List (String × Chain ℝ)},
        (∀ e ∈ cs, e.2.cfg .color ≠ none ∨ ∃ o, s.override = some o ∧ .color ∈ o.userSet) →
        List.Forall₂ (fun e x => ∃ col, x = (e.1, e.2.withCfg (Spec.resolved s.override e.2.userSet (numContourChains h s) e.2.cfg col))) cs x →
        x = cs.map fun e => (e.1, e.2.withCfg (Spec.resolved s.override e.2.userSet (numContourChains h s) e.2.cfg "")) := by
      intro cs x hc hf
      induction hf with
      | nil => rfl
      | cons hh _ ih =>
        obtain ⟨col, rfl⟩ := hh
        rw [List.map_cons, ← ih fun e he => hc e (List.mem_cons_of_mem _ he)]
        congr 3
        funext k
        exact resolved_colour _ _ (.inr (hc _ List.mem_cons_self))
    rw [key hcol h1, key (fun e he => hcol e ((order_copies ho).mem_iff.1 he)) h2]
    exact (order_copies ho).map _

/-- **C133** is violated by automatic colours: if two neighbours in the registry have automatic colours and change places, they also
change colours. -/
theorem C133_violated {h : Heap ℝ} {s s' : Consumer ℝ} {pre post : List (String × Chain ℝ)} {n m : String} {c e : Chain ℝ}
    (hu : uncoloured (chainsOf h s) ≤ 88) (hov : ∀ o, s.override = some o → .color ∉ o.userSet) (hs : s'.override = s.override)
    (hc : copyChains h s = pre ++ (n, c) :: (m, e) :: post) (hc' : copyChains h s' = pre ++ (m, e) :: (n, c) :: post)
    (hcc : c.cfg .color = none ∧ .color ∉ c.userSet) (hec : e.cfg .color = none ∧ .color ∉ e.userSet) :
    ∃ d d' c1 e1 c2 e2 col col2, finalDict h s = .ok d ∧ finalDict h s' = .ok d' ∧ (n, c1) ∈ d ∧ (m, e1) ∈ d ∧ (n, c2) ∈ d' ∧ (m, e2) ∈ d' ∧
      c1.cfg .color = some col ∧ e1.cfg .color = some col2 ∧ c2.cfg .color = some col2 ∧ e2.cfg .color = some col ∧ col ≠ col2 := by
  have hperm : (copyChains h s').Perm (copyChains h s) := by
    rw [hc, hc']
    exact (List.Perm.swap _ _ _).append_left _
  have hu' : uncoloured (chainsOf h s') ≤ 88 := by
    have : uncoloured (chainsOf h s') = uncoloured (chainsOf h s) := ((hperm.map Prod.snd).filter _).length_eq
    rw [this]
    exact hu
  have hlt : uncoloured (pre.map Prod.snd) + 2 ≤ 88 := by
    refine le_trans ?_ hu
    simp only [chainsOf, hc, uncoloured, List.map_append, List.map_cons, List.filter_append, List.length_append, hcc.1, hec.1,
      List.filter_cons, decide_true, if_true, List.length_cons]
    omega
  have hres : ∀ (t : Consumer ℝ) (x : Chain ℝ) (N : Nat) (col : String), t.override = s.override → x.cfg .color = none → .color ∉ x.userSet →
      Spec.resolved t.override x.userSet N x.cfg col .color = some col := by
    intro t x N col ht hx hx'
    rw [ht]
    unfold Spec.resolved
    simp only [if_neg hx', auto, if_pos hx, Option.getD_some]
    cases ho : s.override with
    | none => rfl
    | some o => simp only [if_neg (hov o ho)]
  have hne : autoColours.getD (uncoloured (pre.map Prod.snd)) "" ≠ autoColours.getD (uncoloured (pre.map Prod.snd) + 1) "" := by
    have h1 : uncoloured (pre.map Prod.snd) < autoColours.length := by rw [autoColours_length]; omega
    have h2 : uncoloured (pre.map Prod.snd) + 1 < autoColours.length := by rw [autoColours_length]; omega
    rw [getD_eq h1, getD_eq h2]
    intro heq
    have := (List.Nodup.getElem_inj_iff autoColours_nodup).1 heq
    omega
  have e1 := finalDict_entries hu
  have e2 := finalDict_entries hu'
  rw [hc, finalEntries_append] at e1
  rw [hc', finalEntries_append] at e2
  simp only [finalEntries, List.map_cons, resolvedChains, List.zip_cons_cons, hcc.1, hec.1, if_true, Nat.zero_add] at e1 e2
  refine ⟨_, _, _, _, _, _, _, _, e1, e2, List.mem_append_right _ List.mem_cons_self,
    List.mem_append_right _ (List.mem_cons_of_mem _ List.mem_cons_self), List.mem_append_right _ (List.mem_cons_of_mem _ List.mem_cons_self),
    List.mem_append_right _ List.mem_cons_self, hres s c _ _ rfl hcc.1 hcc.2, hres s e _ _ rfl hec.1 hec.2, hres s' c _ _ hs hcc.1 hcc.2,
    hres s' e _ _ hs hec.1 hec.2, hne⟩

/-! ## Summaries -/

theorem summaryLoop_order (kde : KdeFn) {cols cols' : List String} (hn : cols.Nodup) (hp : cols'.Perm cols) {cs cs' : List (Chain ℝ)}
    (hcs : ∃ c₀, c₀.Perm cs ∧ List.Forall₂ SameButColour c₀ cs') (hnd : (cs.map (·.name)).Nodup)
    {r : List (String × List (String × Summary ℝ))} (hr : summaryLoop kde cols cs [] = .ok r) :
    ∃ r', summaryLoop kde cols' cs' [] = .ok r' ∧ ∃ r₀, r₀.Perm r ∧ List.Forall₂ (fun e e' => e'.1 = e.1 ∧ e'.2.Perm e.2) r₀ r' := by
  obtain ⟨c₀, hc₀, hcol⟩ := hcs
  obtain ⟨kvs, h1, rfl⟩ := (summaryLoop_ok_iff _ _ _ _ _).1 hr
  obtain ⟨kvs₀, h2, h3⟩ := List.perm_comp_forall₂ hc₀ h1
  have keys : ∀ {cols : List String} {cs : List (Chain ℝ)} {kvs : List (String × List (String × Summary ℝ))},
      List.Forall₂ (fun (c : Chain ℝ) kv => kv.1 = c.name ∧ chainSummary kde c cols [] = .ok kv.2) cs kvs → kvs.map Prod.fst = cs.map (·.name) := by
    intro cols cs kvs hf
    induction hf with
    | nil => rfl
    | cons hh _ ih => rw [List.map_cons, List.map_cons, ih, hh.1]
  have hnd₀ : (c₀.map (·.name)).Nodup := (hc₀.map _).nodup_iff.2 hnd
  have hnd' : (cs'.map (·.name)).Nodup := by
    have : cs'.map (·.name) = c₀.map (·.name) := by
      clear hc₀ h2 hnd₀
      induction hcol with
      | nil => rfl
      | cons hh _ ih => rw [List.map_cons, List.map_cons, ih, hh.1]; rfl
    rw [this]
    exact hnd₀
  obtain ⟨kvs', h4, h5⟩ : ∃ kvs' : List (String × List (String × Summary ℝ)), List.Forall₂ (fun (c : Chain ℝ) kv => kv.1 = c.name ∧ chainSummary kde c cols' [] = .ok kv.2) cs' kvs' ∧
      List.Forall₂ (fun e e' => e'.1 = e.1 ∧ e'.2.Perm e.2) kvs₀ kvs' := by
    clear hnd' hnd₀ hc₀ h3
    induction hcol generalizing kvs₀ with
    | nil => cases h2; exact ⟨[], .nil, .nil⟩
    | @cons c c' _ _ hh _ ih =>
      cases h2 with
      | cons hk h2 =>
        obtain ⟨kvs', k1, k2⟩ := ih _ h2
        have hg : ∀ k ∈ summaryKeys, c'.cfg k = c.cfg k := fun k hk => hh.2 k (by rintro rfl; simp [summaryKeys] at hk)
        obtain ⟨r', hr', hperm⟩ := chainSummary_perm kde (d := c') (fun p => by rw [hh.1]; exact summaryEntry_withCfg kde c _ hg p)
          (fun p => by rw [hh.1]; rfl) hn hp hk.2
        refine ⟨(c'.name, r') :: kvs', .cons ⟨rfl, hr'⟩ k1, .cons ⟨?_, hperm⟩ k2⟩
        rw [hk.1, hh.1]
        rfl
  refine ⟨_, (summaryLoop_ok_iff _ _ _ _ _).2 ⟨kvs', h4, rfl⟩, kvs₀, ?_, ?_⟩
  · rw [dictMerge_nodup _ _ (by simpa [keys h1] using hnd)]
    exact h3
  · rw [dictMerge_nodup _ _ (by simpa [keys h4] using hnd')]
    exact h5

/-- **C133** (`get_summary`). In another order the same summaries are reported, for the columns asked for or for all columns. -/
theorem C133_summary (kde : KdeFn) {h : Heap ℝ} {s s' : Consumer ℝ} (ho : OtherOrder s s')
    (hnd : ((copyChains h s).map (·.2.name)).Nodup) (columns : Option (List String)) (hcols : ∀ l, columns = some l → l.Nodup)
    {r : List (String × List (String × Summary ℝ))} (hr : getSummary kde h s none columns = .ok r) :
    ∃ r', getSummary kde h s' none columns = .ok r' ∧ ∃ r₀, r₀.Perm r ∧ List.Forall₂ (fun e e' => e'.1 = e.1 ∧ e'.2.Perm e.2) r₀ r' := by
  simp only [getSummary, plotChains, bind_ok_iff, pure_ok_iff] at hr
  obtain ⟨cs, ⟨d, hd, c1, rfl, rfl⟩, hr⟩ := hr
  obtain ⟨hiff, hset⟩ := C133_settings_partial ho (h := h)
  obtain ⟨d', hd'⟩ := hiff.2 ⟨d, hd⟩
  obtain ⟨⟨d₀, h1, h2⟩, -⟩ := hset d d' hd hd'
  have hall : ∀ l : List (Chain ℝ), (l.filter fun c => true || !c.skip) = l := fun l => List.filter_eq_self.2 fun c _ => rfl
  rw [hall] at hr
  have hcs : ∃ c₀ : List (Chain ℝ), c₀.Perm (d.map Prod.snd) ∧ List.Forall₂ SameButColour c₀ (d'.map Prod.snd) := by
    refine ⟨d₀.map Prod.snd, h1.map _, ?_⟩
    rw [List.forall₂_map_left_iff, List.forall₂_map_right_iff]
    exact h2.imp fun e e' hh => hh.2
  have hnames : ((d.map Prod.snd).map (·.name)).Nodup := by
    have hu : uncoloured (chainsOf h s) ≤ 88 := by
      by_contra hu
      simp only [finalDict, (finalChains_eq h s).2 (by omega), bind, Except.bind] at hd
      cases hd
    rw [finalDict_entries hu] at hd
    cases hd
    have : ∀ (N : Nat) (ov : Option (Config ℝ)) (cs : List (String × Chain ℝ)) (u : Nat),
        ((finalEntries N ov cs u).map Prod.snd).map (·.name) = cs.map (·.2.name) := by
      intro N ov cs u
      have hf := finalEntries_forall₂ N ov cs u
      generalize finalEntries N ov cs u = x at hf
      induction hf with
      | nil => rfl
      | cons hh _ ih =>
        obtain ⟨col, rfl⟩ := hh
        rw [List.map_cons, List.map_cons, List.map_cons, ih]
        rfl
    rw [this]
    exact hnd
  have hcolumns : (sanitiseColumns columns (d'.map Prod.snd)).Perm (sanitiseColumns columns (d.map Prod.snd)) ∧
      (sanitiseColumns columns (d.map Prod.snd)).Nodup := by
    cases columns with
    | some l => exact ⟨.refl _, hcols l rfl⟩
    | none =>
      obtain ⟨k1, -⟩ := C55_columns (d.map Prod.snd)
      obtain ⟨k2, -⟩ := C55_columns (d'.map Prod.snd)
      refine ⟨(List.perm_ext_iff_of_nodup k2.nodup k1.nodup).2 fun p => ?_, k1.nodup⟩
      rw [k2.mem, k1.mem]
      obtain ⟨c₀, hc, hf⟩ := hcs
      rw [← (hc.flatMap_right Chain.plottingColumns).mem_iff]
      have : (d'.map Prod.snd).flatMap Chain.plottingColumns = c₀.flatMap Chain.plottingColumns := by
        clear hc hr
        generalize d'.map Prod.snd = cs' at hf
        induction hf with
        | nil => rfl
        | cons hh _ ih =>
          rw [List.flatMap_cons, List.flatMap_cons, ih]
          congr 1
          have e1 := hh.2 .plotCloud (by simp)
          have e2 := hh.2 .colorParam (by simp)
          have e3 : ∀ c c' : Chain ℝ, SameButColour c c' → c'.dataColumns = c.dataColumns := fun c c' hc => by rw [hc.1]; rfl
          simp only [Chain.plottingColumns, e1, e2, e3 _ _ hh]
      rw [this]
  obtain ⟨r', h3, h4⟩ := summaryLoop_order kde hcolumns.2 hcolumns.1 hcs hnames hr
  refine ⟨r', ?_, h4⟩
  simp only [getSummary, plotChains, bind_ok_iff, pure_ok_iff]
  exact ⟨_, ⟨d', hd', _, rfl, rfl⟩, by rw [hall]; exact h3⟩

/-! ## Comparisons, best points -/

section
variable {K : Type} [Field K] [LinearOrder K]

theorem minNan_fin (x y : K) : Flt.minNan (.fin x) (.fin y) = .fin (min x y) := by
  simp only [Flt.minNan, Flt.lt, decide_eq_true_eq]
  split
  · rw [min_eq_right (le_of_lt ‹_›)]
  · rw [min_eq_left (not_lt.1 ‹_›)]

instance : Std.Associative (Flt.minNan (K := K)) := ⟨fun x y z => by
  cases x <;> cases y <;> cases z <;> first | (simp only [minNan_fin, min_assoc]; done) | rfl | (simp only [Flt.minNan, Flt.lt, Bool.false_eq_true, if_true, if_false, decide_eq_true_eq]; (try split_ifs) <;> rfl)⟩

instance : Std.Commutative (Flt.minNan (K := K)) := ⟨fun x y => by
  cases x <;> cases y <;> first | (simp only [minNan_fin]; rw [min_comm]) | simp only [Flt.minNan, Flt.lt, Bool.false_eq_true, if_true, if_false]⟩

theorem minNan_posInf (x : Flt K) : Flt.minNan .posInf x = x := by
  cases x <;> simp [Flt.minNan, Flt.lt]

theorem relativeToMin_eq (d : List (String × Flt K)) :
    relativeToMin d = d.map fun e => (e.1, e.2.sub ((d.map Prod.snd).foldl Flt.minNan .posInf)) := by
  cases d with
  | nil => rfl
  | cons e es => simp only [relativeToMin, List.map_cons, List.foldl_cons, minNan_posInf, List.foldl_map]

theorem relativeToMin_order {d d' : List (String × Flt K)} (h : d'.Perm d) : (relativeToMin d').Perm (relativeToMin d) := by
  rw [relativeToMin_eq, relativeToMin_eq, (h.map Prod.snd).foldl_op_eq]
  exact h.map _

theorem criterionLoop_ok_iff {f : Chain K → Res (Option (Flt K))} {cs : List (String × Chain K)} {r : List (String × Flt K)} :
    criterionLoop f cs = .ok r ↔ ∃ vs : List (String × Option (Flt K)), List.Forall₂ (fun e v => v.1 = e.1 ∧ f e.2 = .ok v.2) cs vs ∧
      r = vs.filterMap fun v => v.2.map fun x => (v.1, x) := by
  induction cs generalizing r with
  | nil =>
    constructor
    · intro h
      cases h
      exact ⟨[], .nil, rfl⟩
    · rintro ⟨vs, h1, rfl⟩
      cases h1
      rfl
  | cons e cs ih =>
    simp only [criterionLoop, bind_ok_iff, pure_ok_iff]
    constructor
    · rintro ⟨v, h1, r', h2, rfl⟩
      obtain ⟨vs, h3, rfl⟩ := ih.1 h2
      refine ⟨(e.1, v) :: vs, .cons ⟨rfl, h1⟩ h3, ?_⟩
      cases v <;> rfl
    · rintro ⟨vs, h1, rfl⟩
      cases h1 with
      | @cons _ v _ vs hh h1 =>
        refine ⟨v.2, hh.2, _, ih.2 ⟨vs, h1, rfl⟩, ?_⟩
        rw [List.filterMap_cons, ← hh.1]
        cases v.2 <;> rfl

theorem criterion_order {f : Chain K → Res (Option (Flt K))} {cs cs' : List (String × Chain K)} (h : cs'.Perm cs) {r : List (String × Flt K)}
    (hr : criterionLoop f cs = .ok r) : ∃ r', criterionLoop f cs' = .ok r' ∧ r'.Perm r := by
  obtain ⟨vs, h1, rfl⟩ := criterionLoop_ok_iff.1 hr
  obtain ⟨vs', h2, h3⟩ := List.perm_comp_forall₂ h h1
  exact ⟨_, criterionLoop_ok_iff.2 ⟨vs', h2, rfl⟩, h3.filterMap _⟩

theorem criterion_keys {f : Chain K → Res (Option (Flt K))} {cs : List (String × Chain K)} {r : List (String × Flt K)}
    (hr : criterionLoop f cs = .ok r) (hn : (cs.map Prod.fst).Nodup) : (r.map Prod.fst).Nodup := by
  obtain ⟨vs, h1, rfl⟩ := criterionLoop_ok_iff.1 hr
  have hv : vs.map Prod.fst = cs.map Prod.fst := by
    clear hr hn
    induction h1 with
    | nil => rfl
    | cons hh _ ih => rw [List.map_cons, List.map_cons, ih, hh.1]
  rw [← hv] at hn
  refine hn.sublist ?_
  clear hr h1 hv hn
  induction vs with
  | nil => exact .slnil
  | cons v vs ih =>
    rw [List.filterMap_cons, List.map_cons]
    cases v.2 with
    | none => exact ih.cons _
    | some x => exact ih.cons_cons _

end

/-- **C133** (criteria). In another order the same criteria are reported. -/
theorem C133_criteria (tie : List (List ℝ) → List ℝ → Nat) {cs cs' : List (String × Chain ℝ)} (h : cs'.Perm cs) (k : Crit)
    {r : List (String × Flt ℝ)} (hr : critDict tie cs k = .ok r) : ∃ r', critDict tie cs' k = .ok r' ∧ r'.Perm r := by
  cases k <;> simp only [critDict, aic, bic, dic, bind_ok_iff, pure_ok_iff] at hr ⊢ <;> obtain ⟨d, h1, rfl⟩ := hr <;>
    obtain ⟨d', h2, h3⟩ := criterion_order h h1 <;> exact ⟨_, ⟨d', h2, rfl⟩, relativeToMin_order h3⟩

theorem critDict_keys (tie : List (List ℝ) → List ℝ → Nat) {cs : List (String × Chain ℝ)} (hn : (cs.map Prod.fst).Nodup) (k : Crit)
    {r : List (String × Flt ℝ)} (hr : critDict tie cs k = .ok r) : (r.map Prod.fst).Nodup := by
  cases k <;> simp only [critDict, aic, bic, dic, bind_ok_iff, pure_ok_iff] at hr <;> obtain ⟨d, h1, rfl⟩ := hr <;>
    rw [relativeToMin_keys] <;> exact criterion_keys h1 hn

theorem onlyIf_order (tie : List (List ℝ) → List ℝ → Nat) {cs cs' : List (String × Chain ℝ)} (h : cs'.Perm cs) (hn : (cs.map Prod.fst).Nodup)
    (b : Bool) (k : Crit) {r : List (String × Flt ℝ)} (hr : onlyIf b (critDict tie cs k) = .ok r) :
    ∃ r', onlyIf b (critDict tie cs' k) = .ok r' ∧ r'.Perm r ∧ (r.map Prod.fst).Nodup := by
  cases b with
  | false => cases hr; exact ⟨[], rfl, .refl _, by simp⟩
  | true =>
    obtain ⟨r', h1, h2⟩ := C133_criteria tie h k hr
    exact ⟨r', h1, h2, critDict_keys tie hn k hr⟩

/-- **C133** (table of comparisons). If the scores by which the rows are sorted are numbers and differ, the table is the same in any
order. In any case it has the same rows. -/
theorem C133_table (tie : List (List ℝ) → List ℝ → Nat) (fmt : Flt ℝ → String) (o : CompOpts) {cs cs' : List (String × Chain ℝ)}
    (h : cs'.Perm cs) (hn : (cs.map Prod.fst).Nodup) {p : CompParts} (hp : compParts tie fmt o cs = .ok p) :
    ∃ p', compParts tie fmt o cs' = .ok p' ∧ p'.names.Perm p.names ∧ p'.lines.Perm p.lines ∧
      ((∀ r, critDict tie cs o.sort = .ok r → ∀ m ∈ p.names, ∀ n ∈ p.names, m ≠ n →
        ∃ x y, r.lookup m = some (.fin x) ∧ r.lookup n = some (.fin y) ∧ x ≠ y) →
      comparisonTable tie fmt o cs' = comparisonTable tie fmt o cs) := by
  have hp0 := hp
  simp only [compParts, bind_ok_iff, ensure_ok_iff] at hp
  obtain ⟨_, hon, a, ha, b, hb, d, hd, hp⟩ := hp
  cases hp
  obtain ⟨a', ha', pa, na⟩ := onlyIf_order tie h hn o.aic .aic ha
  obtain ⟨b', hb', pb, nb⟩ := onlyIf_order tie h hn o.bic .bic hb
  obtain ⟨d', hd', pd, nd⟩ := onlyIf_order tie h hn o.dic .dic hd
  have ea : cellOf a' = cellOf a := by funext n; simp only [cellOf, lookup_of_perm na pa]
  have eb : cellOf b' = cellOf b := by funext n; simp only [cellOf, lookup_of_perm nb pb]
  have ed : cellOf d' = cellOf d := by funext n; simp only [cellOf, lookup_of_perm nd pd]
  set key := cellOf (match o.sort with | .aic => a | .bic => b | .dic => d) with hkey
  have ekey : cellOf (match o.sort with | .aic => a' | .bic => b' | .dic => d') = key := by
    rw [hkey]
    cases o.sort <;> assumption
  have hkeys : (unionKeys [a', b', d']).Perm (unionKeys [a, b, d]) := by
    have nd3 : ∀ {a b d : List (String × Flt ℝ)}, (a.map Prod.fst).Nodup → (b.map Prod.fst).Nodup → (d.map Prod.fst).Nodup →
        (unionKeys [a, b, d]).Nodup := by
      intro a b d ha hb hd
      refine unionKeys_nodup ?_
      simp only [List.mem_cons, List.not_mem_nil, or_false, forall_eq_or_imp, forall_eq]
      exact ⟨ha, hb, hd⟩
    refine (List.perm_ext_iff_of_nodup (nd3 ((pa.map _).nodup_iff.2 na) ((pb.map _).nodup_iff.2 nb) ((pd.map _).nodup_iff.2 nd))
      (nd3 na nb nd)).2 fun n => ?_
    simp only [unionKeys_mem, List.mem_cons, List.not_mem_nil, or_false, exists_eq_or_imp, exists_eq_left, (pa.map _).mem_iff,
      (pb.map _).mem_iff, (pd.map _).mem_iff]
  obtain ⟨s1, s2⟩ := sortValues_spec key o.descending (unionKeys [a, b, d])
  obtain ⟨s1', s2'⟩ := sortValues_spec key o.descending (unionKeys [a', b', d'])
  have hnames : (sortValues key o.descending (unionKeys [a', b', d'])).Perm (sortValues key o.descending (unionKeys [a, b, d])) :=
    s1'.trans (hkeys.trans s1.symm)
  have ha'' : onlyIf o.aic (aic cs') = .ok a' := ha'
  have hb'' : onlyIf o.bic (bic cs') = .ok b' := hb'
  have hd'' : onlyIf o.dic (dic tie cs') = .ok d' := hd'
  have hp' : compParts tie fmt o cs' = .ok
      { columnText := repeatChar 'c' (((1 + if o.aic = true then 1 else 0) + if o.bic = true then 1 else 0) + 1)
        header := compHeader o
        names := sortValues key o.descending (unionKeys [a', b', d'])
        lines := (sortValues key o.descending (unionKeys [a', b', d'])).map (compLine o fmt (cellOf a) (cellOf b) (cellOf d)) } := by
    rw [← ekey, ← ea, ← eb, ← ed]
    simp only [compParts, bind_ok_iff, ensure_ok_iff]
    exact ⟨(), hon, a', ha'', b', hb'', d', hd'', rfl⟩
  refine ⟨_, hp', hnames, hnames.map _, fun hdist => ?_⟩
  have hsame : sortValues key o.descending (unionKeys [a', b', d']) = sortValues key o.descending (unionKeys [a, b, d]) := by
    refine List.Perm.eq_of_pairwise ?_ s2' s2 hnames
    intro m n hm hn' h1 h2
    by_contra hne
    obtain ⟨r, hr, hk⟩ : ∃ r, critDict tie cs o.sort = .ok r ∧ key = cellOf r := by
      rw [hkey]
      cases hs : o.sort <;> rw [hs] at hon <;> simp only [CompOpts.on] at hon
      · exact ⟨a, by simpa [onlyIf, hon, critDict] using ha, rfl⟩
      · exact ⟨b, by simpa [onlyIf, hon, critDict] using hb, rfl⟩
      · exact ⟨d, by simpa [onlyIf, hon, critDict] using hd, rfl⟩
    obtain ⟨x, y, hx, hy, hxy⟩ := hdist r hr m (hnames.mem_iff.1 hm) n hn' hne
    have kx : key m = .fin x := by rw [hk, cellOf, hx]; rfl
    have ky : key n = .fin y := by rw [hk, cellOf, hy]; rfl
    have i1 := h1.2 x y kx ky
    have i2 := h2.2 y x ky kx
    cases hdesc : o.descending <;> rw [hdesc] at i1 i2
    · exact hxy (le_antisymm i1 i2)
    · exact hxy (le_antisymm i2 i1)
  rw [hsame] at hp'
  simp only [comparisonTable, hp', hp0]
  rfl

theorem postLoop_order {K : Type} [LT K] [DecidableLT K] {cs cs' : List (String × Chain K)} (h : cs'.Perm cs)
    {r : List (String × Chain.MaxPosterior K)} (hr : postLoop cs = .ok r) : ∃ r', postLoop cs' = .ok r' ∧ r'.Perm r := by
  have key : ∀ (cs : List (String × Chain K)) (r : List (String × Chain.MaxPosterior K)), postLoop cs = .ok r ↔
      ∃ vs : List (List (String × Chain.MaxPosterior K)),
        List.Forall₂ (fun e v => ∃ p, e.2.maxPosteriorPoint = .ok p ∧ v = postEntry e.1 p) cs vs ∧ r = vs.flatten := by
    intro cs
    induction cs with
    | nil =>
      intro r
      constructor
      · intro h
        cases h
        exact ⟨[], .nil, rfl⟩
      · rintro ⟨vs, h1, rfl⟩
        cases h1
        rfl
    | cons e cs ih =>
      intro r
      simp only [postLoop, bind_ok_iff, pure_ok_iff]
      constructor
      · rintro ⟨p, h1, r', h2, rfl⟩
        obtain ⟨vs, h3, rfl⟩ := (ih _).1 h2
        exact ⟨postEntry e.1 p :: vs, .cons ⟨p, h1, rfl⟩ h3, rfl⟩
      · rintro ⟨vs, h1, rfl⟩
        cases h1 with
        | cons hh h1 =>
          obtain ⟨p, hp, rfl⟩ := hh
          exact ⟨p, hp, _, (ih _).2 ⟨_, h1, rfl⟩, rfl⟩
  obtain ⟨vs, h1, rfl⟩ := (key _ _).1 hr
  obtain ⟨vs', h2, h3⟩ := List.perm_comp_forall₂ h h1
  exact ⟨_, (key _ _).2 ⟨vs', h2, rfl⟩, h3.flatten⟩

/-- **C133** (best points). In another order the same best points are reported. -/
theorem C133_best_points {K : Type} [LT K] [DecidableLT K] {h : Heap K} {s s' : Consumer K} (ho : OtherOrder s s')
    {r : List (String × Chain.MaxPosterior K)} (hr : getMaxPosteriors h s .all = .ok r) :
    ∃ r', getMaxPosteriors h s' .all = .ok r' ∧ r'.Perm r := by
  simp only [getMaxPosteriors, postChains, bind_ok_iff, mapM_ok_iff] at hr ⊢
  obtain ⟨d, h1, h2⟩ := hr
  obtain ⟨d', h3, h4⟩ := List.perm_comp_forall₂ ho.chains h1
  obtain ⟨r', h5, h6⟩ := postLoop_order h4 h2
  exact ⟨r', ⟨d', h3, h5⟩, h6⟩

/-! ## Diagnostics -/

theorem runDiagnostic_entries {K : Type} {f : Chain K → Res Bool} {cs : List (Chain K)} {r : TestResult} : runDiagnostic f cs = .ok r ↔
    cs ≠ [] ∧ ∃ bs : List (String × Bool), List.Forall₂ (fun c b => b.1 = c.name ∧ f c = .ok b.2) cs bs ∧
      r = ⟨bs.all (·.2), dictMerge [] bs⟩ := by
  have hloop : ∀ (cs : List (Chain K)) (rs : List TestResult),
      (cs.mapM fun c => do
        let b ← f c
        return ({ passed := b, results := [(c.name, b)] } : TestResult)) = .ok rs ↔
      ∃ bs : List (String × Bool), List.Forall₂ (fun c b => b.1 = c.name ∧ f c = .ok b.2) cs bs ∧
        rs = bs.map fun b => ⟨b.2, [b]⟩ := by
    intro cs rs
    rw [mapM_ok_iff]
    constructor
    · intro h
      induction h with
      | nil => exact ⟨[], .nil, rfl⟩
      | cons hh _ ih =>
        obtain ⟨bs, h1, rfl⟩ := ih
        simp only [bind_ok_iff, pure_ok_iff] at hh
        obtain ⟨b, hb, rfl⟩ := hh
        exact ⟨(_, b) :: bs, .cons ⟨rfl, hb⟩ h1, rfl⟩
    · rintro ⟨bs, h1, rfl⟩
      induction h1 with
      | nil => exact .nil
      | cons hh _ ih =>
        refine .cons ?_ ih
        simp only [bind_ok_iff, pure_ok_iff]
        exact ⟨_, hh.2, by rw [← hh.1]⟩
  have hfold : ∀ (bs : List (String × Bool)) (acc : List (String × Bool)),
      (bs.map fun b => (⟨b.2, [b]⟩ : TestResult)).foldl (fun acc r => dictMerge acc r.results) acc = dictMerge acc bs := by
    intro bs
    induction bs with
    | nil => intro acc; rfl
    | cons b bs ih =>
      intro acc
      rw [List.map_cons, List.foldl_cons, ih]
      rfl
  unfold runDiagnostic
  split
  · simp
  · simp only [bind_ok_iff, pure_ok_iff]
    constructor
    · rintro ⟨b, hb, rfl⟩
      exact ⟨by simp, [(_, b)], .cons ⟨rfl, hb⟩ .nil, by simp [dictMerge, dictSet]⟩
    · rintro ⟨-, bs, h1, rfl⟩
      cases h1 with
      | cons hh h1 =>
        cases h1
        refine ⟨_, hh.2, ?_⟩
        simp [dictMerge, dictSet, ← hh.1]
  · rename_i hne _
    simp only [bind_ok_iff, pure_ok_iff, hloop]
    constructor
    · rintro ⟨rs, ⟨bs, h1, rfl⟩, rfl⟩
      refine ⟨hne, bs, h1, ?_⟩
      rw [hfold, List.all_map]
      rfl
    · rintro ⟨-, bs, h1, rfl⟩
      refine ⟨_, ⟨bs, h1, rfl⟩, ?_⟩
      rw [hfold, List.all_map]
      rfl

theorem diagnostic_order {K : Type} {f : Chain K → Res Bool} {cs cs' : List (Chain K)} (h : cs'.Perm cs) (hn : (cs.map (·.name)).Nodup)
    {r : TestResult} (hr : runDiagnostic f cs = .ok r) : ∃ r', runDiagnostic f cs' = .ok r' ∧ r'.passed = r.passed ∧ r'.results.Perm r.results := by
  obtain ⟨hne, bs, h1, rfl⟩ := runDiagnostic_entries.1 hr
  obtain ⟨bs', h2, h3⟩ := List.perm_comp_forall₂ h h1
  have keys : ∀ {cs : List (Chain K)} {bs : List (String × Bool)},
      List.Forall₂ (fun c b => b.1 = c.name ∧ f c = .ok b.2) cs bs → bs.map Prod.fst = cs.map (·.name) := by
    intro cs bs hf
    induction hf with
    | nil => rfl
    | cons hh _ ih => rw [List.map_cons, List.map_cons, ih, hh.1]
  refine ⟨_, runDiagnostic_entries.2 ⟨fun h0 => hne ?_, bs', h2, rfl⟩, all_perm h3 _, ?_⟩
  · rw [h0] at h
    exact h.nil_eq.symm
  · dsimp only
    rw [dictMerge_nodup [] bs (by simpa [keys h1] using hn), dictMerge_nodup [] bs' (by simpa [keys h2] using (h.map _).nodup_iff.2 hn)]
    exact h3

/-- **C133** (diagnostics). In another order the verdicts are the same. -/
theorem C133_diagnostics (spec : List ℝ → Flt ℝ) (normaltest : List (Flt ℝ) → Flt ℝ) (t first last t' : ℝ)
    {cs cs' : List (String × Chain ℝ)} (h : cs'.Perm cs) (hn : (cs.map (·.2.name)).Nodup) {r : TestResult} :
    (gelmanRubin cs .all t = .ok r → ∃ r', gelmanRubin cs' .all t = .ok r' ∧ r'.passed = r.passed ∧ r'.results.Perm r.results) ∧
    (geweke spec normaltest cs .all first last t' = .ok r →
      ∃ r', geweke spec normaltest cs' .all first last t' = .ok r' ∧ r'.passed = r.passed ∧ r'.results.Perm r.results) := by
  have hn' : ((cs.map Prod.snd).map (·.name)).Nodup := by rwa [List.map_map]
  exact ⟨fun hr => diagnostic_order (h.map Prod.snd) hn' hr, fun hr => diagnostic_order (h.map Prod.snd) hn' hr⟩

/-! ## Ranges -/

section
variable {K : Type} [Field K] [LinearOrder K]

theorem joinRange_right (r a b : Option (K × K)) : joinRange (joinRange r a) b = joinRange (joinRange r b) a := by
  cases r <;> cases a <;> cases b <;> simp only [joinRange, Option.some.injEq, Prod.mk.injEq]
  · rename_i a b
    exact ⟨min_comm _ _, max_comm _ _⟩
  · rename_i r a b
    exact ⟨min_left_comm _ _ _, max_left_comm _ _ _⟩

theorem parameterExtents_ok_iff {p : String} {wide : Bool} {cs : List (Chain K)} {s r : Option (K × K)} :
    cs.foldlM (fun r c => do return joinRange r (← chainRange c p wide)) s = .ok r ↔
      ∃ rs, List.Forall₂ (fun c x => chainRange c p wide = .ok x) cs rs ∧ r = rs.foldl joinRange s := by
  induction cs generalizing s with
  | nil =>
    constructor
    · intro h
      cases h
      exact ⟨[], .nil, rfl⟩
    · rintro ⟨rs, h1, rfl⟩
      cases h1
      rfl
  | cons c cs ih =>
    simp only [List.foldlM_cons, bind_ok_iff, pure_ok_iff]
    constructor
    · rintro ⟨s', ⟨x, hx, rfl⟩, h2⟩
      obtain ⟨rs, h3, rfl⟩ := ih.1 h2
      exact ⟨x :: rs, .cons hx h3, rfl⟩
    · rintro ⟨rs, h1, rfl⟩
      cases h1 with
      | cons hx h1 => exact ⟨_, ⟨_, hx, rfl⟩, ih.2 ⟨_, h1, rfl⟩⟩

/-- **C133** (ranges). In another order parameters are shown over the same ranges. -/
theorem C133_ranges {p : String} {wide : Bool} {cs cs' : List (Chain K)} (h : cs'.Perm cs) {r : Option (K × K)}
    (hr : parameterExtents p wide cs = .ok r) : parameterExtents p wide cs' = .ok r := by
  obtain ⟨rs, h1, rfl⟩ := parameterExtents_ok_iff.1 hr
  obtain ⟨rs', h2, h3⟩ := List.perm_comp_forall₂ h h1
  refine parameterExtents_ok_iff.2 ⟨rs', h2, ?_⟩
  have : RightCommutative (joinRange (K := K)) := ⟨joinRange_right⟩
  exact h3.symm.foldl_eq _

end

/-! ## Examples -/

/-- Two chains without colours, added in either order: the hypotheses of the theorems on the registry hold, and those of the violation. -/
example : ∃ (h : Heap ℝ) (s s' : Consumer ℝ) (c e : Chain ℝ), addAll h {} [0, 1] = .ok s ∧ addAll h {} [1, 0] = .ok s' ∧ OtherOrder s s' ∧
    ((copyChains h s).map (·.2.name)).Nodup ∧ uncoloured (chainsOf h s) ≤ 88 ∧ s.override = none ∧ copyChains h s = [("x", c), ("y", e)] ∧
    copyChains h s' = [("y", e), ("x", c)] ∧ (c.cfg .color = none ∧ .color ∉ c.userSet) ∧ (e.cfg .color = none ∧ .color ∉ e.userSet) := by
  obtain ⟨c, e, f, -, -, -, hc, he, hf⟩ := colour_chains
  have h1 : addAll [c, e] ({} : Consumer ℝ) [0, 1] = .ok { chains := [("x", 0), ("y", 1)] } :=
    addAll_ok_iff.2 ⟨[c, e], .cons rfl (.cons rfl .nil), by simp [hc.1, he.1], by simp, by simp [hc.1, he.1]⟩
  have h2 : addAll [c, e] ({} : Consumer ℝ) [1, 0] = .ok { chains := [("y", 1), ("x", 0)] } :=
    addAll_ok_iff.2 ⟨[e, c], .cons rfl (.cons rfl .nil), by simp [hc.1, he.1], by simp, by simp [hc.1, he.1]⟩
  obtain ⟨s', h3, h4, -⟩ := C133_added (rs' := [1, 0]) (by decide) h1
  rw [h2] at h3
  cases h3
  refine ⟨_, _, _, c, e, h1, h2, h4, ?_, ?_, rfl, rfl, rfl, ?_, ?_⟩
  · simp [copyChains, hc.1, he.1]
  · simp [uncoloured, chainsOf, copyChains, hc.2, he.2]
  · simp [hc.2]
  · simp [he.2]

/-- The hypotheses on the table of comparisons hold for two chains of different best posterior: sorted by AIC, the scores 0 and 2. -/
example (tie : List (List ℝ) → List ℝ → Nat) (fmt : Flt ℝ → String) : ∃ (cs : List (String × Chain ℝ)) (o : CompOpts) (p : CompParts),
    (cs.map Prod.fst).Nodup ∧ cs.length = 2 ∧ compParts tie fmt o cs = .ok p ∧ p.names.length = 2 ∧
    ∀ r, critDict tie cs o.sort = .ok r → ∀ m ∈ p.names, ∀ n ∈ p.names, m ≠ n →
      ∃ x y, r.lookup m = some (.fin x) ∧ r.lookup n = some (.fin y) ∧ x ≠ y := by
  let f : ℝ → Frame ℝ := fun x => { index := [.int 0], cols := [("a", [1]), ("weight", [1]), ("log_posterior", [x])] }
  have hf : ∀ x, (f x).WF := fun x => ⟨by simp [f], by simp [f]⟩
  obtain ⟨c, -, hc, -, hcp, -⟩ := plain_chain (f 0) (hf 0) (by simp [f]) (w := [1]) rfl (by simp) "one"
  obtain ⟨e, -, he, -, hep, -⟩ := plain_chain (f (-1)) (hf _) (by simp [f]) (w := [1]) rfl (by simp) "two"
  let c' : Chain ℝ := { c with numEffDataPoints := some 7, numFreeParams := some 1 }
  let e' : Chain ℝ := { e with numEffDataPoints := some 7, numFreeParams := some 1 }
  have lc : c'.logPosterior = some [0] := by simp only [Chain.logPosterior, c', hc, hcp]; rfl
  have le : e'.logPosterior = some [-1] := by simp only [Chain.logPosterior, e', he, hep]; rfl
  have vc : c'.aicValue = .ok (some (.fin (14 / 5))) := by
    simp only [Chain.aicValue, lc]
    norm_num [c', npMax, bind, Except.bind, pure, Except.pure]
  have ve : e'.aicValue = .ok (some (.fin (24 / 5))) := by
    simp only [Chain.aicValue, le]
    norm_num [e', npMax, bind, Except.bind, pure, Except.pure]
  have ha : aic [("one", c'), ("two", e')] = .ok [("one", .fin 0), ("two", .fin 2)] := by
    simp only [aic, criterionLoop, vc, ve, bind, Except.bind, pure, Except.pure, relativeToMin, List.foldl_cons, List.foldl_nil,
      minNan_fin, List.map_cons, List.map_nil, Flt.sub]
    norm_num [Flt.add, Flt.neg]
  have hp : ∃ p, compParts tie fmt { bic := false, dic := false, sort := .aic } [("one", c'), ("two", e')] = .ok p := by
    simp only [compParts, bind_ok_iff, ensure_ok_iff]
    exact ⟨_, (), rfl, _, ha, [], rfl, [], rfl, rfl⟩
  obtain ⟨p, hp⟩ := hp
  obtain ⟨h1, -, -⟩ := C20_rows_listed_and_sorted tie fmt _ _ (by simp) p hp
  have hl : [("one", c'), ("two", e')].filter (fun x => listed { bic := false, dic := false, sort := .aic } x.2) =
      [("one", c'), ("two", e')] := by
    have l1 : listed { bic := false, dic := false, sort := .aic } c' = true := by
      simp [listed, eligible, c', hc, hcp, f, Frame.columns]
    have l2 : listed { bic := false, dic := false, sort := .aic } e' = true := by
      simp [listed, eligible, e', he, hep, f, Frame.columns]
    simp [l1, l2]
  rw [hl] at h1
  refine ⟨_, _, p, by simp, rfl, hp, h1.length_eq, ?_⟩
  intro r hr m hm n hn hne
  have hr' : r = [("one", .fin 0), ("two", .fin 2)] := by
    have : aic [("one", c'), ("two", e')] = .ok r := hr
    rw [ha] at this
    cases this
    rfl
  subst hr'
  have hm' := h1.mem_iff.1 hm
  have hn' := h1.mem_iff.1 hn
  simp only [List.map_cons, List.map_nil, List.mem_cons, List.not_mem_nil, or_false] at hm' hn'
  rcases hm' with rfl | rfl <;> rcases hn' with rfl | rfl
  · exact absurd rfl hne
  · exact ⟨0, 2, rfl, rfl, by norm_num⟩
  · exact ⟨2, 0, rfl, rfl, by norm_num⟩
  · exact absurd rfl hne

end CC
