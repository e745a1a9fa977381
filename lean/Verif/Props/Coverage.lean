import Verif.Props.Degenerate
import Verif.Props.Drawn
import Verif.Props.Extents
import Verif.Props.ManyRows

/-! # C108: marginals count nearly all samples -/

namespace CC
open Spec

theorem weightWhere_or {data w : List ℝ} (hw : ∀ v ∈ w, 0 ≤ v) (P Q : ℝ → Bool) :
    weightWhere data w (fun x => P x || Q x) ≤ weightWhere data w P + weightWhere data w Q := by
  have h := weightWhere_add data w (R := fun x => P x || Q x) (P := P) (Q := fun x => !P x && Q x) fun x _ => by
    cases P x <;> cases Q x <;> simp
  rw [h]
  have := weightWhere_mono (data := data) hw (P := fun x => !P x && Q x) (Q := Q) fun x _ hx => by
    simp only [Bool.and_eq_true] at hx
    exact hx.2
  linarith

/-- The weight of the samples outside a range. -/
noncomputable def Spec.weightOutside (data w : List ℝ) (l u : ℝ) : ℝ := weightWhere data w fun x => decide (x < l ∨ u < x)

/-- The weight in one of 2000 equal cells of the range of the data. -/
noncomputable def Spec.cellWeight (data w : List ℝ) (lo hi : ℝ) (k : Nat) : ℝ :=
  weightWhere data w fun x => decide (cellEdge lo hi k ≤ x ∧ (x < cellEdge lo hi (k + 1) ∨ k + 1 = 2000))

theorem getExtents_outside {data w : List ℝ} (hl : w.length = data.length) (hw : ∀ v ∈ w, 0 < v) {lo hi : ℝ} (hlo : lo ∈ data)
    (hhi : hi ∈ data) (hb : ∀ x ∈ data, lo ≤ x ∧ x ≤ hi) (hlt : lo < hi) {W e : ℝ} (hW : W = weightWhere data w fun _ => true)
    (he : ∀ k < 2000, cellWeight data w lo hi k ≤ e * W) {pad : Bool} {l u : ℝ}
    (h : getExtents data w false true false pad = .ok (l, u)) : l ≤ u ∧ weightOutside data w l u ≤ (3 * e + 2 / 10 ^ 5) * W := by
  obtain ⟨i, j, t, R, l0, u0, h1, h2, h3, ht, el, eu, hlu, hget, hR, hR0, a1, -, a3, -⟩ :=
    C45_extents data w hl hw lo hi hlo hhi hb hlt false true false pad
  have hw0 : ∀ v ∈ w, 0 ≤ v := fun v hv => (hw v hv).le
  simp only [Bool.false_eq_true, if_false] at ht
  rw [h] at hget
  have hout : l ≤ l0 ∧ u0 ≤ u := by
    cases pad
    · simp only [Bool.false_eq_true, if_false, Except.ok.injEq, Prod.mk.injEq] at hget
      exact ⟨hget.1.le, hget.2.ge⟩
    · simp only [if_true, Except.ok.injEq, Prod.mk.injEq] at hget
      rw [hget.1, hget.2]
      constructor <;> linarith
  refine ⟨by linarith, ?_⟩
  have hRW : R ≤ W := by
    rw [hR, hW]
    exact weightWhere_mono hw0 fun x _ _ => rfl
  have hedge : ∀ k : Nat, cellEdge lo hi k = lo + k * ((hi - lo) / 2000) := by
    intro k; unfold cellEdge; ring
  have hstep : 0 < (hi - lo) / 2000 := by linarith
  set P0 : ℝ → Bool := fun x => decide (cellEdge lo hi 0 ≤ x ∧ (x < cellEdge lo hi (0 + 1) ∨ 0 + 1 = 2000)) with hP0
  set P1 : ℝ → Bool := fun x => decide (cellEdge lo hi 1 ≤ x ∧ x < cellEdge lo hi i) with hP1
  set P2 : ℝ → Bool := fun x => decide (cellEdge lo hi i ≤ x ∧ (x < cellEdge lo hi (i + 1) ∨ i + 1 = 2000)) with hP2
  set P3 : ℝ → Bool := fun x => decide (cellEdge lo hi j ≤ x ∧ (x < cellEdge lo hi (j + 1) ∨ j + 1 = 2000)) with hP3
  set P4 : ℝ → Bool := fun x => decide (cellEdge lo hi (j + 1) ≤ x ∧ j + 1 < 2000) with hP4
  have hcover : weightOutside data w l u ≤ weightWhere data w fun x => P0 x || (P1 x || (P2 x || (P3 x || P4 x))) := by
    refine weightWhere_mono hw0 fun x hx ho => ?_
    simp only [decide_eq_true_eq] at ho
    obtain ⟨hx1, hx2⟩ := hb x hx
    simp only [hP0, hP1, hP2, hP3, hP4, Bool.or_eq_true, decide_eq_true_eq]
    rcases ho with ho | ho
    · -- below
      have hxi : x < cellEdge lo hi (i + 1) := by
        have : x < l0 := lt_of_lt_of_le ho hout.1
        rw [el, hedge, hedge] at this
        rw [hedge]
        push_cast at this ⊢
        nlinarith
      by_cases c1 : x < cellEdge lo hi (0 + 1)
      · left
        refine ⟨?_, Or.inl c1⟩
        rw [hedge]; simpa using hx1
      · right
        by_cases c2 : x < cellEdge lo hi i
        · exact Or.inl ⟨by simpa using not_lt.1 c1, c2⟩
        · exact Or.inr (Or.inl ⟨not_lt.1 c2, Or.inl hxi⟩)
    · have hxj : cellEdge lo hi j ≤ x := by
        have : u0 < x := lt_of_le_of_lt hout.2 ho
        rw [eu, hedge, hedge] at this
        rw [hedge]
        push_cast at this
        nlinarith
      right; right; right
      by_cases c1 : x < cellEdge lo hi (j + 1) ∨ j + 1 = 2000
      · exact Or.inl ⟨hxj, c1⟩
      · push Not at c1
        exact Or.inr ⟨c1.1, by omega⟩
  have b0 := he 0 (by norm_num)
  have b2 := he i (by omega)
  have b3 := he j (by omega)
  unfold cellWeight at b0 b2 b3
  have s0 := weightWhere_or (data := data) hw0 P0 fun x => P1 x || (P2 x || (P3 x || P4 x))
  have s1 := weightWhere_or (data := data) hw0 P1 fun x => P2 x || (P3 x || P4 x)
  have s2 := weightWhere_or (data := data) hw0 P2 fun x => P3 x || P4 x
  have s3 := weightWhere_or (data := data) hw0 P3 P4
  have : t * R ≤ 1 / 10 ^ 5 * W := by rw [ht]; linarith
  linarith

/-- **C108** (partial: up to the weight of three of 2000 cells). If none of 2000 equal cells of the range of a
parameter holds more than the share `e` of the weight, the bins of its marginal leave out at most the share
`3 e + 2e-5`, with padding or not. -/
theorem C108_partial {c : Chain ℝ} (hg : c.grid = false) {data w : List ℝ} (hl : w.length = data.length) (hw : ∀ v ∈ w, 0 < v)
    {lo hi : ℝ} (hlo : lo ∈ data) (hhi : hi ∈ data) (hb : ∀ x ∈ data, lo ≤ x ∧ x ≤ hi) (hlt : lo < hi) {W e : ℝ}
    (hW : W = weightWhere data w fun _ => true) (he : ∀ k < 2000, cellWeight data w lo hi k ≤ e * W) {pad : Bool} {bins : List ℝ}
    (h : marginalBins c data w pad = .ok bins) (h2 : 2 ≤ bins.length) :
    ∃ l u, bins.head? = some l ∧ bins.getLast? = some u ∧ weightOutside data w l u ≤ (3 * e + 2 / 10 ^ 5) * W := by
  have hx : ∃ l u, getExtents data w false true false pad = .ok (l, u) := by
    obtain ⟨i, j, t, R, l0, u0, -, -, -, -, -, -, -, hget, -⟩ :=
      C45_extents data w hl hw lo hi hlo hhi hb hlt false true false pad
    exact ⟨_, _, hget⟩
  obtain ⟨l, u, hx⟩ := hx
  obtain ⟨-, hout⟩ := getExtents_outside hl hw hlo hhi hb hlt hW he hx
  have hlin : ∃ n, bins = linspace l u n := by
    simp only [marginalBins, hg, getSmoothedBins, hx, bind, Except.bind, pure, Except.pure, linspaceInt, Bool.false_eq_true, if_false] at h
    split_ifs at h
    all_goals
      simp only [Except.ok.injEq] at h
    all_goals exact ⟨_, h.symm⟩
  obtain ⟨n, rfl⟩ := hlin
  rw [linspace_length] at h2
  exact ⟨l, u, linspace_head (by omega), linspace_last h2, hout⟩

/-- A concrete case: five equally weighted samples, each in a cell of its own. -/
example : ∀ k < 2000, cellWeight [0, 1, 2, 3, 4] [1, 1, 1, 1, 1] 0 4 k ≤ 1 / 5 * weightWhere [0, 1, 2, 3, 4] [1, 1, 1, 1, 1] fun _ => true := by
  intro k hk
  have hk' : (k : ℝ) ≤ 1999 := by exact_mod_cast (show k ≤ 1999 by omega)
  obtain ⟨P, hP⟩ : ∃ P : ℝ → Prop, P = fun x => cellEdge 0 4 k ≤ x ∧ (x < cellEdge 0 4 (k + 1) ∨ k + 1 = 2000) := ⟨_, rfl⟩
  have key : ∀ {p q : ℝ}, P p → P q → p + 1 ≤ q → q ≤ 4 → False := by
    intro p q hp hq hpq h4
    rw [hP] at hp hq
    unfold cellEdge at hp hq
    rcases hq.2 with h | h
    · push_cast at h
      have := hp.1
      linarith
    · have e : (k : ℝ) = 1999 := by rw [show k = 1999 by omega]; norm_num
      have := hp.1
      rw [e] at this
      linarith
  have hall : ∀ x y : ℝ, x + 1 ≤ y → y ≤ 4 → P x → ¬ P y := fun x y h1 h2 h3 h4 => key h3 h4 h1 h2
  have h01 := hall 0 1 (by norm_num) (by norm_num)
  have h02 := hall 0 2 (by norm_num) (by norm_num)
  have h03 := hall 0 3 (by norm_num) (by norm_num)
  have h04 := hall 0 4 (by norm_num) (by norm_num)
  have h12 := hall 1 2 (by norm_num) (by norm_num)
  have h13 := hall 1 3 (by norm_num) (by norm_num)
  have h14 := hall 1 4 (by norm_num) (by norm_num)
  have h23 := hall 2 3 (by norm_num) (by norm_num)
  have h24 := hall 2 4 (by norm_num) (by norm_num)
  have h34 := hall 3 4 (by norm_num) (by norm_num)
  have e : cellWeight [0, 1, 2, 3, 4] [1, 1, 1, 1, 1] 0 4 k = weightWhere [0, 1, 2, 3, 4] [1, 1, 1, 1, 1] fun x => @decide (P x) (Classical.dec _) := by
    rw [cellWeight]
    refine weightWhere_congr _ _ fun x _ => ?_
    rw [hP]
    congr
  rw [e]
  simp only [weightWhere, List.zip_cons_cons, List.zip_nil_right, List.map_cons, List.map_nil, List.sum_cons, List.sum_nil, if_true,
    decide_eq_true_eq]
  by_cases p0 : P 0
  · simp only [p0, h01 p0, h02 p0, h03 p0, h04 p0]; norm_num
  by_cases p1 : P 1
  · simp only [p0, p1, h12 p1, h13 p1, h14 p1]; norm_num
  by_cases p2 : P 2
  · simp only [p0, p1, p2, h23 p2, h24 p2]; norm_num
  by_cases p3 : P 3
  · simp only [p0, p1, p2, p3, h34 p3]; norm_num
  by_cases p4 : P 4 <;> simp only [p0, p1, p2, p3, p4] <;> norm_num

/-- **C108** (what goes wrong). Without padding, the bins leave out every sample of the lowest cell and every sample in the upper half
of the highest one, whatever their weights: always those at the least and at the greatest value. -/
theorem C108_lowest {c : Chain ℝ} (hg : c.grid = false) {data w : List ℝ} (hl : w.length = data.length) (hw : ∀ v ∈ w, 0 < v)
    {lo hi : ℝ} (hlo : lo ∈ data) (hhi : hi ∈ data) (hb : ∀ x ∈ data, lo ≤ x ∧ x ≤ hi) (hlt : lo < hi) {bins : List ℝ}
    (h : marginalBins c data w false = .ok bins) (h2 : 2 ≤ bins.length) :
    ∃ l u, bins.head? = some l ∧ bins.getLast? = some u ∧ lo + (hi - lo) / 2000 < l ∧ u ≤ hi - (hi - lo) / 4000 ∧
      cellWeight data w lo hi 0 + weightWhere data w (fun x => decide (hi - (hi - lo) / 4000 < x)) ≤ weightOutside data w l u := by
  obtain ⟨i, j, t, R, l, u, h1, -, h3, -, el, eu, -, hget, -⟩ := C45_extents data w hl hw lo hi hlo hhi hb hlt false true false false
  simp only [Bool.false_eq_true, if_false] at hget
  have hlin : ∃ n, bins = linspace l u n := by
    simp only [marginalBins, hg, getSmoothedBins, hget, bind, Except.bind, pure, Except.pure, linspaceInt, Bool.false_eq_true, if_false] at h
    split_ifs at h
    all_goals
      simp only [Except.ok.injEq] at h
    all_goals exact ⟨_, h.symm⟩
  obtain ⟨n, rfl⟩ := hlin
  rw [linspace_length] at h2
  have hi1 : (1 : ℝ) ≤ i := by exact_mod_cast h1
  have hj1 : (j : ℝ) ≤ 1999 := by exact_mod_cast (show j ≤ 1999 by omega)
  have hstep : 0 < (hi - lo) / 2000 := by linarith
  have hll : lo + (hi - lo) / 2000 < l := by
    rw [el]
    unfold cellEdge
    push_cast
    nlinarith
  have huu : u ≤ hi - (hi - lo) / 4000 := by
    rw [eu]
    unfold cellEdge
    push_cast
    nlinarith
  refine ⟨l, u, linspace_head (by omega), linspace_last h2, hll, huu, ?_⟩
  have hcell : ∀ x, (cellEdge lo hi 0 ≤ x ∧ (x < cellEdge lo hi (0 + 1) ∨ 0 + 1 = 2000)) → x < lo + (hi - lo) / 2000 := by
    intro x hx
    rcases hx.2 with hx | hx
    · unfold cellEdge at hx
      push_cast at hx
      linarith
    · norm_num at hx
  rw [cellWeight, ← weightWhere_add data w (R := fun x => decide (cellEdge lo hi 0 ≤ x ∧ (x < cellEdge lo hi (0 + 1) ∨ 0 + 1 = 2000)) ||
    decide (hi - (hi - lo) / 4000 < x)) fun x _ => ?_]
  · refine weightWhere_mono (fun v hv => (hw v hv).le) fun x hx hc => ?_
    simp only [Bool.or_eq_true, decide_eq_true_eq] at hc ⊢
    rcases hc with hc | hc
    · exact Or.inl ((hcell x hc).trans hll)
    · exact Or.inr (lt_of_le_of_lt huu hc)
  · by_cases p : cellEdge lo hi 0 ≤ x ∧ (x < cellEdge lo hi (0 + 1) ∨ 0 + 1 = 2000)
    · have q : ¬ hi - (hi - lo) / 4000 < x := by
        have := hcell x p
        linarith
      simp only [decide_eq_true p, decide_eq_false q, Bool.or_false, if_true, Bool.false_eq_true, if_false, add_zero]
    · simp only [decide_eq_false p, Bool.false_or, Bool.false_eq_true, if_false, zero_add]

/-- 96 of 100 samples at the lower end. -/
noncomputable def edgeFrame : Frame ℝ :=
  ⟨[.int 0, .int 1, .int 2, .int 3, .int 4], [("a", [0, 1, 2, 3, 4]), ("weight", [96, 1, 1, 1, 1])]⟩

theorem edge_extents (pad : Bool) : getExtents [0, 1, 2, 3, 4] [96, 1, 1, 1, (1 : ℝ)] false true false pad =
    .ok (if pad then (1001 / 1000 - 2998 / 5000, 3999 / 1000 + 2998 / 5000) else (1001 / 1000, 3999 / 1000)) := by
  obtain ⟨i, j, t, R, l, u, h1, h2, h3, ht, h4, h5, -, h6, hR, -, h7, h9, h8, -⟩ :=
    C45_extents [0, 1, 2, 3, 4] [96, 1, 1, 1, (1 : ℝ)] rfl (by simp) 0 4 (by simp) (by simp) (by
      intro x hx
      simp only [List.mem_cons, List.not_mem_nil, or_false] at hx
      rcases hx with rfl | rfl | rfl | rfl | rfl <;> norm_num) (by norm_num) false true false pad
  simp only [Bool.false_eq_true, if_false] at ht
  have hsum : ∀ P : ℝ → Bool, weightWhere [0, 1, 2, 3, 4] [96, 1, 1, 1, (1 : ℝ)] P = (if P 0 then 96 else 0) +
      ((if P 1 then 1 else 0) + ((if P 2 then 1 else 0) + ((if P 3 then 1 else 0) + if P 4 then 1 else 0))) := by
    intro P
    simp [weightWhere]
  have hR4 : R = 4 := by
    rw [hR, hsum]
    norm_num [cellEdge]
  rw [hsum] at h7 h8 h9
  have hj : j = 1999 := by
    by_contra hne
    have hj : j + 1 < 2000 := by omega
    have hj' : ((j + 1 : ℕ) : ℝ) ≤ 2000 := by exact_mod_cast hj.le
    have hP : cellEdge (0 : ℝ) 4 (j + 1) ≤ 4 := by unfold cellEdge; linarith
    simp only [hP, hj, and_self, decide_true, if_true] at h8
    rw [ht, hR4] at h8
    revert h8
    split_ifs <;> intro h8 <;> linarith
  have hi1 : i ≤ 500 := by
    by_contra hne
    have hi' : (501 : ℝ) ≤ i := by exact_mod_cast (show 501 ≤ i by omega)
    have hP : cellEdge (0 : ℝ) 4 1 ≤ 1 ∧ 1 < cellEdge (0 : ℝ) 4 i := by
      unfold cellEdge; constructor <;> [norm_num; linarith]
    simp only [hP, and_self, decide_true, if_true] at h7
    rw [ht, hR4] at h7
    revert h7
    split_ifs <;> intro h7 <;> linarith
  have hi2 : 500 ≤ i := by
    by_contra hne
    have hi' : (i : ℝ) + 1 ≤ 500 := by exact_mod_cast (show i + 1 ≤ 500 by omega)
    have hne' : ¬ i + 1 = 2000 := by omega
    have hE : cellEdge (0 : ℝ) 4 (i + 1) ≤ 1 := by unfold cellEdge; push_cast; linarith
    have h0 : ¬ cellEdge (0 : ℝ) 4 1 ≤ 0 := by unfold cellEdge; norm_num
    simp only [hne', or_false, h0, false_and, not_lt.2 hE, not_lt.2 (hE.trans (show (1 : ℝ) ≤ 2 by norm_num)),
      not_lt.2 (hE.trans (show (1 : ℝ) ≤ 3 by norm_num)), not_lt.2 (hE.trans (show (1 : ℝ) ≤ 4 by norm_num)), and_false, decide_false,
      Bool.false_eq_true, if_false] at h9
    rw [ht, hR4] at h9
    norm_num at h9
  obtain rfl : i = 500 := by omega
  subst hj
  have el : l = 1001 / 1000 := by rw [h4]; unfold cellEdge; norm_num
  have eu : u = 3999 / 1000 := by rw [h5]; unfold cellEdge; norm_num
  rw [h6, el, eu]
  norm_num

/-- **C108** (negation). An accepted chain with 96 percent of its weight at 0: its marginal starts above 1 (above 2/5 with padding),
and the centre of its summary is above 1. -/
theorem C108_violated (kde : KdeFn) (hk : KdeOk kde) : ∃ c, Chain.make { samples := edgeFrame.toRaw, name := "edge" } = .ok c ∧
    c.samples.get "a" = .ok [0, 1, 2, 3, 4] ∧ c.weights = .ok [96, 1, 1, 1, 1] ∧
    (∀ pad m, smoothedHistogram kde c "a" pad none = .ok m → ∀ x ∈ m.xs, (if pad then 2 / 5 else 1) < x) ∧
    ∃ b x, parameterSummary kde c "a" = .ok b ∧ b.center = some x ∧ 1 < x := by
  have hf : edgeFrame.WF := ⟨by simp [edgeFrame], by simp [edgeFrame]⟩
  obtain ⟨c, hc, hcs, hw, -, hpow, hg, -, -, hcfg⟩ :=
    plain_chain_cfg (K := ℝ) false [] rfl (by change (0 : ℝ) ≤ 6827 / 10000 ∧ (6827 / 10000 : ℝ) ≤ 1; constructor <;> norm_num)
      (by change (1 : ℝ) ≤ 10; norm_num) rfl rfl (by intro h; cases h) edgeFrame hf
      (by simp [edgeFrame]) (w := [96, 1, 1, 1, 1]) rfl (by simp) "edge" 1 le_rfl (one_dvd _)
  have hd : c.samples.get "a" = .ok [0, 1, 2, 3, 4] := by rw [hcs]; rfl
  have hcw : c.weights = .ok [96, 1, 1, 1, 1] := by rw [Chain.weights, hcs, hw]; rfl
  have hsm : c.smoothValue = 3 := by
    have : c.cfg .smooth = none := by rw [hcfg]; rfl
    simp only [Chain.smoothValue, this, hg]; rfl
  have hbins : getBins c = 35 := by
    have : c.cfg .bins = none := by rw [hcfg]; rfl
    simp only [getBins, this, hsm, hcs]
    norm_num [edgeFrame]
  have hec : edgeCount c = 210 := by rw [edgeCount, hsm, hbins]; norm_num
  have hkde : c.cfg .kde = (0 : ℝ) := by rw [hcfg]; rfl
  have hst : c.cfg .statistics = some Stat.max := by rw [hcfg]; rfl
  have hxs : ∀ pad m, smoothedHistogram kde c "a" pad none = .ok m → ∀ x ∈ m.xs, (if pad then 2 / 5 else 1) < x := by
    intro pad m hm x hx
    obtain ⟨l, u, hlu, hx0, hl1⟩ : ∃ l u : ℝ, l < u ∧ getExtents [0, 1, 2, 3, 4] [96, 1, 1, 1, (1 : ℝ)] false true false pad = .ok (l, u) ∧
        (if pad then 2 / 5 else 1) < l := by
      rw [edge_extents]
      cases pad
      · exact ⟨_, _, by norm_num, rfl, by norm_num⟩
      · exact ⟨_, _, by norm_num, rfl, by norm_num⟩
    have hmb := marginalBins_range hg hx0 (by rw [hec]; norm_num)
    rw [hec, show (210 : Int).toNat = 210 from rfl] at hmb
    simp only [smoothedHistogram, hd, hcw, hmb, bind_ok_iff, ensure_ok_iff, pure_ok_iff, Except.ok.injEq, exists_eq_left'] at hm
    obtain ⟨hist, -, hist', -, ab, hab, _, -, ys, -, cs, -, rfl⟩ := hm
    obtain ⟨e1, e2⟩ := linspace_ends (by norm_num) hab
    have hab' : ab.1 ≤ ab.2 := by
      rw [e1, e2]
      norm_num
      linarith
    have := (linspace_mem hab' two_le_gridSize hx).1
    have h1 : l ≤ ab.1 := by
      rw [e1]
      have : 0 ≤ (u - l) / (((210 : Nat) : ℝ) - 1) := div_nonneg (by linarith) (by norm_num)
      linarith
    linarith
  obtain ⟨b, x0, hb, -, hcen⟩ := C74_exists_partial kde hk hg hkde hst hd hcw rfl (by simp) ((edge_extents false).trans rfl)
    (by norm_num) (x := 2) (by simp) (by norm_num) (by norm_num) (by rw [hsm]; norm_num) (by rw [hpow]; norm_num) (by rw [hec]; norm_num)
    (by rw [hec, show gridSize = 10000 by unfold gridSize; rfl]; norm_num)
  refine ⟨c, hc, hd, hcw, hxs, b, x0, hb, hcen, ?_⟩
  have hb' := hb
  simp only [parameterSummary, hst, bind_ok_iff] at hb'
  obtain ⟨m, hm, hb'⟩ := hb'
  have hv := C25_marginal_valid kde hk c _ hcw (by simp) "a" false none m hm
  obtain ⟨k, x1, y, hk1, -, -, hor⟩ := C29_max_summary m hv (c.cfg .summaryArea)
  have hx1 : x1 = x0 := by
    rcases hor with h | ⟨l, u, s, i1, i2, t, h, -⟩ <;>
    · rw [h] at hb'
      cases hb'
      simpa using hcen
  have := hxs false m hm x1 (List.mem_of_getElem? hk1)
  rw [← hx1]
  simpa using this

end CC
