import Verif.Props.Bands
import Verif.Props.MaxSummary
import Verif.Props.EqualTailed
import Verif.Props.Isolation
import Verif.Props.Columns
import Verif.Props.Affine
import Verif.Lemmas.TwoPoint

/-! # C107: greater areas give wider summaries -/

set_option linter.unusedSectionVars false

namespace CC
open Spec
variable {K : Type} [Field K] [LinearOrder K] [IsStrictOrderedRing K]

/-! ### the bisection of the max summary -/

theorem firstWhere_mono {l : List K} {s t : K} (hst : s ≤ t) {i j : Nat}
    (hi : firstWhere (fun y => decide (y < s)) l = .ok i) (hj : firstWhere (fun y => decide (y < t)) l = .ok j) : j ≤ i := by
  obtain ⟨hil, hi1, -⟩ := firstWhere_ok_iff.1 hi
  obtain ⟨hjl, -, hj2⟩ := firstWhere_ok_iff.1 hj
  by_contra hc
  have := hj2 i (not_le.1 hc)
  simp only [decide_eq_true_eq, decide_eq_false_iff_not, not_lt] at hi1 this
  exact absurd hi1 (not_lt.2 (hst.trans this))

/-- The limits found belong to a threshold between the two values at the start. -/
theorem maxLoop_threshold {ys cs : List K} {start : Nat} {area : K} {fuel : Nat} {maxv minv : K} (hle : minv ≤ maxv)
    {i : Nat × Nat} (h : maxLoop ys cs start area fuel maxv minv = .ok (some i)) :
    ∃ t r1 r2, minv ≤ t ∧ t ≤ maxv ∧ firstWhere (fun y => decide (y < t)) (ys.take start).reverse = .ok r1 ∧
      firstWhere (fun y => decide (y < t)) (ys.drop start) = .ok r2 ∧ i = (start - r1, start + r2) := by
  induction fuel generalizing maxv minv with
  | zero => cases h
  | succ fuel ih =>
    simp only [maxLoop, bind_ok_iff] at h
    obtain ⟨r1, h1, r2, h2, c2, -, c1, -, h⟩ := h
    have hm1 : minv ≤ (maxv + minv) / 2 := by linarith
    have hm2 : (maxv + minv) / 2 ≤ maxv := by linarith
    split at h
    · simp only [pure_ok_iff, Option.some.injEq] at h
      exact ⟨_, r1, r2, hm1, hm2, h1, h2, h.symm⟩
    · split at h
      · obtain ⟨t, s1, s2, h3, h4, h5⟩ := ih hm1 h
        exact ⟨t, s1, s2, h3, h4.trans hm2, h5⟩
      · split at h
        · obtain ⟨t, s1, s2, h3, h4, h5⟩ := ih hm2 h
          exact ⟨t, s1, s2, hm1.trans h3, h4, h5⟩
        · exact ih hle h

/-- A greater area is never reached at a higher threshold. -/
theorem maxLoop_nested {ys cs : List K} {start : Nat} {a b : K} (hab : a ≤ b) {fuel : Nat} {maxv minv : K} (hle : minv ≤ maxv)
    {i j : Nat × Nat} (hi : maxLoop ys cs start a fuel maxv minv = .ok (some i))
    (hj : maxLoop ys cs start b fuel maxv minv = .ok (some j)) : j.1 ≤ i.1 ∧ i.2 ≤ j.2 := by
  induction fuel generalizing maxv minv with
  | zero => cases hi
  | succ fuel ih =>
    simp only [maxLoop, bind_ok_iff] at hi hj
    obtain ⟨r1, h1, r2, h2, c2, e2, c1, e1, hi⟩ := hi
    obtain ⟨r1', h1', r2', h2', c2', e2', c1', e1', hj⟩ := hj
    obtain rfl : r1 = r1' := Except.ok.inj (h1.symm.trans h1')
    obtain rfl : r2 = r2' := Except.ok.inj (h2.symm.trans h2')
    obtain rfl : c2 = c2' := Except.ok.inj (e2.symm.trans e2')
    obtain rfl : c1 = c1' := Except.ok.inj (e1.symm.trans e1')
    have hm1 : minv ≤ (maxv + minv) / 2 := by linarith
    have hm2 : (maxv + minv) / 2 ≤ maxv := by linarith
    -- the smaller area continues above, the greater one below
    have below : ∀ {k : Nat × Nat}, maxLoop ys cs start b fuel ((maxv + minv) / 2) minv = .ok (some k) →
        k.1 ≤ start - r1 ∧ start + r2 ≤ k.2 := by
      intro k hk
      obtain ⟨t, s1, s2, -, h4, h5, h6, rfl⟩ := maxLoop_threshold hm1 hk
      have := firstWhere_mono h4 h5 h1
      have := firstWhere_mono h4 h6 h2
      exact ⟨by simp only; omega, by simp only; omega⟩
    have above : ∀ {k : Nat × Nat}, maxLoop ys cs start a fuel maxv ((maxv + minv) / 2) = .ok (some k) →
        start - r1 ≤ k.1 ∧ k.2 ≤ start + r2 := by
      intro k hk
      obtain ⟨t, s1, s2, h3, -, h5, h6, rfl⟩ := maxLoop_threshold hm2 hk
      have := firstWhere_mono h3 h1 h5
      have := firstWhere_mono h3 h2 h6
      exact ⟨by simp only; omega, by simp only; omega⟩
    set A := c2 - c1 with hA
    by_cases da : |A - a| < 3 / 1000
    · rw [if_pos da] at hi
      simp only [pure_ok_iff, Option.some.injEq] at hi
      subst hi
      by_cases db : |A - b| < 3 / 1000
      · rw [if_pos db] at hj
        simp only [pure_ok_iff, Option.some.injEq] at hj
        subst hj
        exact ⟨le_rfl, le_rfl⟩
      · rw [if_neg db] at hj
        by_cases lb : A < b
        · rw [if_pos lb] at hj
          exact below hj
        · exfalso
          rw [abs_of_nonneg (by linarith)] at db
          rw [abs_of_nonneg (by linarith)] at da
          linarith
    · rw [if_neg da] at hi
      by_cases db : |A - b| < 3 / 1000
      · rw [if_pos db] at hj
        simp only [pure_ok_iff, Option.some.injEq] at hj
        subst hj
        by_cases la : A < a
        · exfalso
          rw [abs_of_neg (by linarith)] at da db
          linarith
        · rw [if_neg la] at hi
          have : a < A := lt_of_le_of_ne (not_lt.1 la) fun h => da (by rw [h, sub_self, abs_zero]; norm_num)
          rw [if_pos this] at hi
          exact above hi
      · rw [if_neg db] at hj
        by_cases la : A < a
        · rw [if_pos la] at hi
          rw [if_pos (la.trans_le hab)] at hj
          exact ih hm1 hi hj
        · rw [if_neg la] at hi
          have hlt : a < A := lt_of_le_of_ne (not_lt.1 la) fun h => da (by rw [h, sub_self, abs_zero]; norm_num)
          rw [if_pos hlt] at hi
          by_cases lb : A < b
          · rw [if_pos lb] at hj
            have h3 := below hj
            have h4 := above hi
            omega
          · rw [if_neg lb] at hj
            have : b < A := lt_of_le_of_ne (not_lt.1 lb) fun h => db (by rw [h, sub_self, abs_zero]; norm_num)
            rw [if_pos this] at hj
            exact ih hm2 hi hj

theorem summaryMax_nested {m : Marginal K} (hm : ValidMarginal m) {a b : K} (hab : a ≤ b) {l x u l' x' u' : K}
    (h : summaryMax m a = .ok ⟨some l, some x, some u⟩) (h' : summaryMax m b = .ok ⟨some l', some x', some u'⟩) :
    l' ≤ l ∧ u ≤ u' ∧ x' = x := by
  have hpad : padSize = 1000 := by unfold padSize; rfl
  obtain ⟨px, py, hok, hxl, hyl, hval, hpx⟩ := padded_spec hm (P := 1000) (by norm_num)
  simp only [summaryMax, hpad, hok, bind_ok_iff, Except.ok.injEq, exists_eq_left', ensure_ok_iff] at h h'
  obtain ⟨T, hT, _, -, s, hs, top, htop, xc, hxc, r, hr, h⟩ := h
  obtain ⟨T', hT', _, -, s', hs', top', htop', xc', hxc', r', hr', h'⟩ := h'
  obtain rfl : T = T' := Except.ok.inj (hT.symm.trans hT')
  obtain rfl : s = s' := Except.ok.inj (hs.symm.trans hs')
  obtain rfl : top = top' := Except.ok.inj (htop.symm.trans htop')
  obtain rfl : xc = xc' := Except.ok.inj (hxc.symm.trans hxc')
  cases r with
  | none => simp [pure_ok_iff] at h
  | some i =>
    cases r' with
    | none => simp [pure_ok_iff] at h'
    | some j =>
      simp only [bind_ok_iff, pure_ok_iff, Bound.mk.injEq, Option.some.injEq] at h h'
      obtain ⟨x1, h1, x2, h2, rfl, rfl, rfl⟩ := h
      obtain ⟨y1, h3, y2, h4, rfl, h5, rfl⟩ := h'
      have h0 : 0 ≤ top := by
        obtain ⟨hsl, rfl⟩ : ∃ h : s < py.length, py[s] = top := by
          unfold atIndex at htop
          cases hg : py[s]? with
          | none => simp [hg] at htop
          | some v =>
            simp only [hg, Except.ok.injEq] at htop
            subst htop
            exact List.getElem?_eq_some_iff.1 hg
        rw [← getD_eq hsl 0, (hval s (by omega)).2]
        exact padY_nonneg hm (by norm_num) (by omega)
      obtain ⟨hn1, hn2⟩ := maxLoop_nested hab h0 hr hr'
      have hat : ∀ {k : Nat} {v : K}, atIndex px k = .ok v → ∃ h : k < px.length, px[k] = v := by
        intro k v hk
        unfold atIndex at hk
        cases hg : px[k]? with
        | none => simp [hg] at hk
        | some w =>
          simp only [hg, Except.ok.injEq] at hk
          subst hk
          exact List.getElem?_eq_some_iff.1 hg
      have hmono : ∀ {p q : Nat} {v w : K}, p ≤ q → atIndex px p = .ok v → atIndex px q = .ok w → v ≤ w := by
        intro p q v w hpq hp hq
        obtain ⟨hp', rfl⟩ := hat hp
        obtain ⟨hq', rfl⟩ := hat hq
        rcases Nat.lt_or_ge p q with hl | hl
        · exact List.pairwise_iff_getElem.1 hpx p q hp' hq' hl
        · have : p = q := by omega
          simp only [this, le_refl]
      exact ⟨hmono hn1 h3 h1, hmono hn2 h2 h4, h5.symm⟩

/-! ### the other summaries -/

theorem equalTailed_nested {m : Marginal K} (hm : ValidMarginal m) {a b : K} (hab : a ≤ b) {r r' : K × K × K}
    (h : equalTailed m a = .ok r) (h' : equalTailed m b = .ok r') : r'.1 ≤ r.1 ∧ r.2.2 ≤ r'.2.2 ∧ r'.2.1 = r.2.1 := by
  simp only [equalTailed, bind_ok_iff, pure_ok_iff] at h h'
  obtain ⟨l, hl, c, hc, u, hu, rfl⟩ := h
  obtain ⟨l', hl', c', hc', u', hu', rfl⟩ := h'
  exact ⟨hm.inverse_mono hl' hl (by linarith), hm.inverse_mono hu hu' (by linarith), Except.ok.inj (hc'.symm.trans hc)⟩

/-! ### the cut of the HDI bands -/

theorem bisectLoop_range {f : K → K} {rtol fa : K} (n : Nat) (xa dm : K) (hdm : 0 ≤ dm) :
    xa ≤ bisectLoop f rtol n xa fa dm ∧ bisectLoop f rtol n xa fa dm ≤ xa + dm := by
  induction n generalizing xa dm with
  | zero => exact ⟨le_rfl, by simp only [bisectLoop]; linarith⟩
  | succ n ih =>
    simp only [bisectLoop]
    split
    · exact ⟨by linarith, by linarith⟩
    · split
      · have := ih (xa + dm / 2) (dm / 2) (by linarith)
        exact ⟨by linarith, by linarith⟩
      · have := ih xa (dm / 2) (by linarith)
        exact ⟨by linarith, by linarith⟩

theorem bisectLoop_mono {f g : K → K} (hfg : ∀ x, g x ≤ f x) {rtol fa ga : K} (hfa : 0 < fa) (hga : 0 < ga) (n : Nat)
    (xa dm : K) (hdm : 0 ≤ dm) : bisectLoop g rtol n xa ga dm ≤ bisectLoop f rtol n xa fa dm := by
  induction n generalizing xa dm with
  | zero => exact le_rfl
  | succ n ih =>
    have hd : 0 ≤ dm / 2 := by linarith
    have hle := hfg (xa + dm / 2)
    have hlow := (bisectLoop_range (f := g) (rtol := rtol) (fa := ga) n xa (dm / 2) hd).2
    have hupp := (bisectLoop_range (f := f) (rtol := rtol) (fa := fa) n (xa + dm / 2) (dm / 2) hd).1
    have sgn : ∀ {v p : K}, 0 < p → (0 ≤ v * p ↔ 0 ≤ v) := fun hp =>
      ⟨fun h => nonneg_of_mul_nonneg_left h hp, fun h => mul_nonneg h hp.le⟩
    simp only [bisectLoop, sgn hfa, sgn hga]
    by_cases hsmall : |dm / 2| < 5 / 10000 + rtol * |xa + dm / 2|
    · rw [if_pos (Or.inr hsmall), if_pos (Or.inr hsmall)]
    · by_cases hf : f (xa + dm / 2) = 0
      · rw [if_pos (Or.inl hf)]
        by_cases hg : g (xa + dm / 2) = 0
        · rw [if_pos (Or.inl hg)]
        · rw [if_neg (by rintro (h | h); exacts [hg h, hsmall h]),
            if_neg (not_le.2 (lt_of_le_of_ne (hle.trans hf.le) hg))]
          exact hlow
      · have hstop : ¬ (f (xa + dm / 2) = 0 ∨ |dm / 2| < 5 / 10000 + rtol * |xa + dm / 2|) := by
          rintro (h | h)
          exacts [hf h, hsmall h]
        rw [if_neg hstop]
        by_cases hg : g (xa + dm / 2) = 0
        · rw [if_pos (Or.inl hg), if_pos (hg.symm.le.trans hle)]
          exact hupp
        · rw [if_neg (by rintro (h | h); exacts [hg h, hsmall h])]
          by_cases hg0 : 0 ≤ g (xa + dm / 2)
          · rw [if_pos hg0, if_pos (hg0.trans hle)]
            exact ih _ _ hd
          · rw [if_neg hg0]
            by_cases hf0 : 0 ≤ f (xa + dm / 2)
            · rw [if_pos hf0]
              exact hlow.trans hupp
            · rw [if_neg hf0]
              exact ih _ _ hd

theorem hdiCut_antitone {m : Marginal K} (hm : ValidMarginal m) {a b : K} (hab : a ≤ b) (hb1 : b ≤ 1) {t t' : K} {d d' : List K}
    (h : hdiCut m a = .ok (t, d)) (h' : hdiCut m b = .ok (t', d')) : d' = d ∧ t' ≤ t := by
  obtain ⟨-, hd, top, hmem, hmax, hbis, htop, hm0⟩ := hdiCut_spec hm h
  obtain ⟨-, hd', top', hmem', hmax', hbis', -, -⟩ := hdiCut_spec hm h'
  obtain rfl : d' = d := by rw [hd, hd']
  obtain rfl : top = top' := le_antisymm (hmax' _ hmem) (hmax _ hmem')
  refine ⟨rfl, ?_⟩
  have g0 : 0 ≤ massAbove m d' 0 - b := by rw [hm0]; linarith
  have f0 : 0 ≤ massAbove m d' 0 - a := by rw [hm0]; linarith
  obtain ⟨ht0, -, -⟩ := bisect_spec (f := fun t => massAbove m d' t - a) htop f0 hbis
  obtain ⟨-, ht1, -⟩ := bisect_spec (f := fun t => massAbove m d' t - b) htop g0 hbis'
  unfold bisect at hbis hbis'
  by_cases g00 : massAbove m d' 0 - b = 0
  · rw [if_pos g00] at hbis'
    cases hbis'
    exact ht0
  rw [if_neg g00] at hbis'
  have gpos : 0 < massAbove m d' 0 - b := lt_of_le_of_ne g0 (Ne.symm g00)
  have fpos : 0 < massAbove m d' 0 - a := by linarith
  rw [if_neg fpos.ne'] at hbis
  by_cases f1 : massAbove m d' top - a = 0
  · rw [if_pos f1] at hbis
    cases hbis
    exact ht1
  rw [if_neg f1] at hbis
  by_cases s1 : 0 < (massAbove m d' 0 - a) * (massAbove m d' top - a)
  · rw [if_pos s1] at hbis
    cases hbis
  rw [if_neg s1] at hbis
  have fneg : massAbove m d' top - a ≤ 0 := by
    by_contra hc
    exact s1 (mul_pos fpos (not_le.1 hc))
  have gneg : massAbove m d' top - b < 0 := by
    have : massAbove m d' top - a < 0 := lt_of_le_of_ne fneg f1
    linarith
  rw [if_neg gneg.ne, if_neg (not_lt.2 (mul_nonpos_of_nonneg_of_nonpos gpos.le gneg.le))] at hbis'
  cases hbis
  cases hbis'
  exact bisectLoop_mono (fun x => by linarith) fpos gpos 100 0 (top - 0) (by linarith)


theorem hdiIntervals_nested {m : Marginal K} (hm : ValidMarginal m) {a b : K} (hab : a ≤ b) (hb1 : b ≤ 1) {A B : List (K × K)}
    (hA : hdiIntervals m a = .ok A) (hB : hdiIntervals m b = .ok B) (h2 : 2 ≤ A.length) :
    ∀ iv ∈ A, ∃ iv' ∈ B, iv'.1 ≤ iv.1 ∧ iv.2 ≤ iv'.2 := by
  simp only [hdiIntervals, bind_ok_iff, pure_ok_iff] at hA hB
  obtain ⟨s, hs, ⟨t, d⟩, hcut, ivs, hivs, hA⟩ := hA
  obtain ⟨s', hs', ⟨t', d'⟩, hcut', ivs', hivs', hB⟩ := hB
  obtain ⟨rfl, htt⟩ := hdiCut_antitone hm hab hb1 hcut hcut'
  obtain ⟨-, hd, -⟩ := hdiCut_spec hm hcut
  have hlen : d'.length = m.xs.length := by rw [hd, List.length_map, hm.ys_length]
  obtain ⟨i1, e1, h3, -⟩ := C24_mask_intervals m.xs hm.increasing (d'.map fun x => decide (t ≤ x)) (by simp [hlen])
  obtain ⟨i2, e2, h4, -⟩ := C24_mask_intervals m.xs hm.increasing (d'.map fun x => decide (t' ≤ x)) (by simp [hlen])
  simp only at hivs hivs'
  obtain rfl : i1 = ivs := Except.ok.inj (e1.symm.trans hivs)
  obtain rfl : i2 = ivs' := Except.ok.inj (e2.symm.trans hivs')
  have hA' : A = i1 := by
    by_cases hi : i1.isEmpty = true
    · rw [if_pos hi] at hA
      rw [← hA] at h2
      simp at h2
    · rw [if_neg hi] at hA
      exact hA.symm
  have key : ∀ iv ∈ i1, ∃ iv' ∈ i2, iv'.1 ≤ iv.1 ∧ iv.2 ≤ iv'.2 := by
    intro iv hiv
    obtain ⟨p, q, hrun, hpq, hp, hq⟩ := (h3 iv).1 hiv
    have hin : ∀ i, p ≤ i → i ≤ q → Holds (d'.map fun x => decide (t' ≤ x)) i := by
      intro i hi hi'
      have := hrun.inside i hi hi'
      simp only [Holds, List.getElem?_map, Option.map_eq_some_iff, decide_eq_true_eq] at this ⊢
      obtain ⟨v, hv, htv⟩ := this
      exact ⟨v, hv, htt.trans htv⟩
    obtain ⟨x, y, hx1, hx2, hr⟩ := exists_run (hin p le_rfl hpq.le)
    have hqy : q ≤ y := by
      by_contra hc
      exact hr.right (hin (y + 1) (by omega) (by omega))
    have hyl : y < m.xs.length := by
      have := hr.inside y hr.le le_rfl
      simp only [Holds, List.getElem?_map, Option.map_eq_some_iff] at this
      obtain ⟨v, hv, -⟩ := this
      rw [← hlen]
      exact (List.getElem?_eq_some_iff.1 hv).1
    have hxl : x < m.xs.length := lt_of_le_of_lt hr.le hyl
    refine ⟨(m.xs[x], m.xs[y]), (h4 _).2 ⟨x, y, hr, by omega, List.getElem?_eq_getElem hxl, List.getElem?_eq_getElem hyl⟩,
      (idx_le hm.increasing (List.getElem?_eq_getElem hxl) hp).2 hx1,
      (idx_le hm.increasing hq (List.getElem?_eq_getElem hyl)).2 hqy⟩
  have hB' : B = i2 := by
    by_cases hi : i2.isEmpty = true
    · rw [List.isEmpty_iff] at hi
      subst hA'
      obtain ⟨iv, hiv⟩ : ∃ iv, iv ∈ A := List.exists_mem_of_length_pos (by omega)
      obtain ⟨iv', hiv', -⟩ := key iv hiv
      rw [hi] at hiv'
      cases hiv'
    · rw [if_neg hi] at hB
      exact hB.symm
  rw [hA', hB']
  exact key

/-! ### chains -/

theorem forall₂_partner {α β : Type} {R : α → β → Prop} {l : List α} {l' : List β} (h : List.Forall₂ R l l') :
    (∀ x ∈ l, ∃ y ∈ l', R x y) ∧ ∀ y ∈ l', ∃ x ∈ l, R x y := by
  induction h with
  | nil => simp
  | cons h _ ih =>
    refine ⟨fun x hx => ?_, fun y hy => ?_⟩
    · rcases List.mem_cons.1 hx with rfl | hx
      · exact ⟨_, by simp, h⟩
      · obtain ⟨y, hy, hr⟩ := ih.1 x hx
        exact ⟨y, by simp [hy], hr⟩
    · rcases List.mem_cons.1 hy with rfl | hy
      · exact ⟨_, by simp, h⟩
      · obtain ⟨x, hx, hr⟩ := ih.2 y hy
        exact ⟨x, by simp [hx], hr⟩

/-- The chain with another summary area. -/
def Spec.withArea (c : Chain ℝ) (a : ℝ) : Chain ℝ := c.withCfg (c.cfg.set ⟨.summaryArea, a⟩)

theorem withArea_cfg (c : Chain ℝ) (a : ℝ) {k : Key} (hk : k ≠ .summaryArea) : (withArea c a).cfg k = c.cfg k := by
  simp [withArea, Chain.withCfg, Cfg.set, hk]

theorem withArea_area (c : Chain ℝ) (a : ℝ) : ((withArea c a).cfg .summaryArea : ℝ) = a := by
  simp [withArea, Chain.withCfg, Cfg.set]

/-- The marginal depends on three settings only. -/
theorem smoothedHistogram_settings (kde : KdeFn) (c : Chain ℝ) (g : Cfg ℝ) (h1 : g .smooth = c.cfg .smooth)
    (h2 : g .kde = c.cfg .kde) (h3 : g .bins = c.cfg .bins) (col : String) (pad : Bool) (u : Option Bool) :
    smoothedHistogram kde (c.withCfg g) col pad u = smoothedHistogram kde c col pad u := by
  have hs : (c.withCfg g).smoothValue = c.smoothValue := by
    simp only [Chain.smoothValue, Chain.withCfg, h1]
    rfl
  have hb : getBins (c.withCfg g) = getBins c := by
    simp only [getBins, hs]
    simp only [Chain.withCfg, h3]
  have hmb : ∀ d w p, marginalBins (c.withCfg g) d w p = marginalBins c d w p := by
    intro d w p
    simp only [marginalBins, hs, hb]
    rfl
  have hmy : ∀ d w b h x y xs, marginalYs kde (c.withCfg g) u d w b h x y xs
      = marginalYs kde c u d w b h x y xs := by
    intro d w b h x y xs
    simp only [marginalYs, hs]
    simp only [Chain.withCfg, h2]
  simp only [smoothedHistogram, hmb, hmy]
  rfl

theorem withArea_marginal (kde : KdeFn) (c : Chain ℝ) (a : ℝ) (col : String) (pad : Bool) (u : Option Bool) :
    smoothedHistogram kde (withArea c a) col pad u = smoothedHistogram kde c col pad u :=
  smoothedHistogram_settings kde c _ (withArea_cfg c a (by decide)) (withArea_cfg c a (by decide))
    (withArea_cfg c a (by decide)) col pad u

/-- **C107** (all statistics but the HDI). With a greater area neither limit of a summary lies further
inside, and the centre is the same unless it is the mean of the limits. -/
theorem C107_nested (kde : KdeFn) (hk : KdeOk kde) (c : Chain ℝ) (w : List ℝ) (hw : c.weights = .ok w)
    (hpos : ∀ v ∈ w, 0 < v) (hstat : c.cfg .statistics ≠ some .hdi) (col : String) (a b : ℝ) (hab : a ≤ b)
    (l x u l' x' u' : ℝ) (h : parameterSummary kde (withArea c a) col = .ok ⟨some l, some x, some u⟩)
    (h' : parameterSummary kde (withArea c b) col = .ok ⟨some l', some x', some u'⟩) :
    l' ≤ l ∧ u ≤ u' ∧ (c.cfg .statistics ≠ some .mean → x' = x) := by
  simp only [parameterSummary, withArea_marginal, withArea_area] at h h'
  rw [withArea_cfg c _ (by decide)] at h h'
  generalize hsv : c.cfg .statistics = sv at h h' hstat ⊢
  have hv : ∀ pad m, smoothedHistogram kde c col pad none = .ok m → ValidMarginal m := fun pad m hm =>
    C25_marginal_valid kde hk c w hw hpos col pad none m hm
  match sv with
  | none => cases h
  | some .hdi => exact absurd rfl hstat
  | some .mean =>
    simp only [summaryMean, bind_ok_iff, pure_ok_iff, Bound.mk.injEq, Option.some.injEq] at h h'
    obtain ⟨m, hm, r, hr, rfl, rfl, rfl⟩ := h
    obtain ⟨m', hm', r', hr', rfl, rfl, rfl⟩ := h'
    obtain rfl : m = m' := Except.ok.inj (hm.symm.trans hm')
    obtain ⟨h1, h2, -⟩ := equalTailed_nested (hv _ _ hm) hab hr hr'
    exact ⟨h1, h2, fun hc => absurd rfl hc⟩
  | some .cumulative =>
    simp only [summaryCumulative, bind_ok_iff, pure_ok_iff, Bound.mk.injEq, Option.some.injEq] at h h'
    obtain ⟨m, hm, r, hr, rfl, rfl, rfl⟩ := h
    obtain ⟨m', hm', r', hr', rfl, rfl, rfl⟩ := h'
    obtain rfl : m = m' := Except.ok.inj (hm.symm.trans hm')
    obtain ⟨h1, h2, h3⟩ := equalTailed_nested (hv _ _ hm) hab hr hr'
    exact ⟨h1, h2, fun _ => h3⟩
  | some .maxCentral =>
    simp only [summaryMaxCentral, bind_ok_iff, pure_ok_iff, Bound.mk.injEq, Option.some.injEq] at h h'
    obtain ⟨m, hm, i, hi, z, hz, p, hp, q, hq, rfl, rfl, rfl⟩ := h
    obtain ⟨m', hm', i', hi', z', hz', p', hp', q', hq', rfl, rfl, rfl⟩ := h'
    obtain rfl : m = m' := Except.ok.inj (hm.symm.trans hm')
    obtain rfl : i = i' := Except.ok.inj (hi.symm.trans hi')
    exact ⟨(hv _ _ hm).inverse_mono hp' hp (by linarith), (hv _ _ hm).inverse_mono hq hq' (by linarith),
      fun _ => Except.ok.inj (hz'.symm.trans hz)⟩
  | some .max =>
    simp only [bind_ok_iff] at h h'
    obtain ⟨m, hm, h⟩ := h
    obtain ⟨m', hm', h'⟩ := h'
    obtain rfl : m = m' := Except.ok.inj (hm.symm.trans hm')
    obtain ⟨h1, h2, h3⟩ := summaryMax_nested (hv _ _ hm) hab h h'
    exact ⟨h1, h2, fun _ => h3⟩

/-- **C107** (several modes). Each mode for the smaller area lies inside one for the greater area. -/
theorem C107_modes (kde : KdeFn) (hk : KdeOk kde) (c : Chain ℝ) (w : List ℝ) (hw : c.weights = .ok w)
    (hpos : ∀ v ∈ w, 0 < v) (col : String) (a b : ℝ) (hab : a ≤ b) (hb1 : b ≤ 1) (bs bs' : List (Bound ℝ))
    (h : summaryEntry kde (withArea c a) col = .ok (.multi bs)) (h' : summaryEntry kde (withArea c b) col = .ok (.multi bs')) :
    ∀ r ∈ bs, ∃ r' ∈ bs', ∃ l x u l' x' u', r = ⟨some l, some x, some u⟩ ∧ r' = ⟨some l', some x', some u'⟩ ∧
      l' ≤ l ∧ u ≤ u' := by
  simp only [summaryEntry, withArea_marginal, withArea_area, bind_ok_iff] at h h'
  rw [withArea_cfg c _ (by decide)] at h h'
  obtain ⟨s, -, h⟩ := h
  obtain ⟨s', -, h'⟩ := h'
  cases hmm : c.cfg .multimodal with
  | false => simp [hmm, pure_ok_iff] at h
  | true =>
    simp only [hmm, if_true, bind_ok_iff] at h h'
    obtain ⟨m, hm, A, hA, h⟩ := h
    obtain ⟨m', hm', B, hB, h'⟩ := h'
    obtain rfl : m = m' := Except.ok.inj (hm.symm.trans hm')
    have hv := C25_marginal_valid kde hk c w hw hpos col _ _ m hm
    split at h
    case isFalse => simp [pure_ok_iff] at h
    case isTrue h2 =>
    split at h'
    case isFalse => simp [pure_ok_iff] at h'
    case isTrue h2' =>
    simp only [bind_ok_iff, pure_ok_iff, Summary.multi.injEq, exists_eq_right] at h h'
    have hcut : ∀ {a I}, hdiIntervals m a = .ok I → ∃ t d, hdiCut m a = .ok (t, d) := by
      intro a I hI
      simp only [hdiIntervals, bind_ok_iff] at hI
      obtain ⟨_, -, ⟨t, d⟩, hc, -⟩ := hI
      exact ⟨t, d, hc⟩
    have hbounds : ∀ {a I bs}, a ≤ 1 → hdiIntervals m a = .ok I → 2 ≤ I.length → multimodalBounds m I = .ok bs →
        List.Forall₂ (fun (iv : ℝ × ℝ) (r : Bound ℝ) => ∃ x, r = ⟨some iv.1, some x, some iv.2⟩) I bs := by
      intro a I bs ha hI hI2 hbs
      obtain ⟨t, d, hc⟩ := hcut hI
      obtain ⟨I', bs1, e1, -, -, hg⟩ := C36_bounds_of_bands m hv a ha t d hc
      obtain rfl : I = I' := Except.ok.inj (hI.symm.trans e1)
      obtain ⟨bs2, e2, hf⟩ := C36_multimodal_bounds m hv I fun iv hiv => by
        obtain ⟨s, e, h1, h2, h3⟩ := hg hI2 iv hiv
        exact ⟨s, e, h1.le, h2, h3⟩
      obtain rfl : bs = bs2 := Except.ok.inj (hbs.symm.trans e2)
      exact hf.imp fun iv r ⟨k, x, y, hr, _⟩ => ⟨x, hr⟩
    have fA := hbounds (hab.trans hb1) hA h2 h
    have fB := hbounds hb1 hB h2' h'
    intro r hr
    obtain ⟨iv, hiv, x, hx⟩ := (forall₂_partner fA).2 r hr
    obtain ⟨iv', hiv', h5, h6⟩ := hdiIntervals_nested hv hab hb1 hA hB h2 iv hiv
    obtain ⟨r', hr', x', hx'⟩ := (forall₂_partner fB).1 iv' hiv'
    exact ⟨r', hr', _, x, _, _, x', _, hx, hx', h5, h6⟩

/-! ### the HDI -/

/-- **C107** (partial: the HDI, up to 1e-12, for grid points more than 1e-12 apart and areas above the
mass of the first one). The interval for the smaller area is not wider than that for the greater one by
more than 1e-12. -/
theorem C107_hdi_partial (kde : KdeFn) (hk : KdeOk kde) (c : Chain ℝ) (w : List ℝ) (hw : c.weights = .ok w)
    (hpos : ∀ v ∈ w, 0 < v) (hstat : c.cfg .statistics = some .hdi) (col : String) (m : Marginal ℝ)
    (hm : smoothedHistogram kde c col true none = .ok m) (hgrid : m.xs.Pairwise fun x y => 1 / 10 ^ 12 < y - x)
    (c0 : ℝ) (hc0 : m.cs.head? = some c0) (a b : ℝ) (ha : c0 < a) (hab : a ≤ b) (hb : b ≤ 1)
    (l x u l' x' u' : ℝ) (h : parameterSummary kde (withArea c a) col = .ok ⟨some l, some x, some u⟩)
    (h' : parameterSummary kde (withArea c b) col = .ok ⟨some l', some x', some u'⟩) :
    u - l ≤ u' - l' + 1 / 10 ^ 12 := by
  simp only [parameterSummary, withArea_marginal, withArea_area] at h h'
  rw [withArea_cfg c _ (by decide), hstat] at h h'
  simp only [hm, bind, Except.bind] at h h'
  have hv := C25_marginal_valid kde hk c w hw hpos col _ _ m hm
  obtain ⟨l2, x2, u2, e2, -, -, i, j, p, q, hij, hi, hj, hp, hq, hmass, -⟩ := C31_hdi_mass hv b hb
  rw [h'] at e2
  obtain ⟨rfl, rfl, rfl⟩ : l' = l2 ∧ x' = x2 ∧ u' = u2 := by simpa using e2
  exact C32_hdi_narrowest hv a (hab.trans hb) hgrid c0 hc0 ha l x u h i j _ _ p q hij hi hj hp hq (hab.trans hmass)

/-- Steps that are too narrow are skipped, so no interval for the area 0 is ever found. -/
theorem hdiLoop_zero {cdf xp : List K} (hc : cdf.Pairwise (· ≤ ·)) (L : List Nat) (hL : ∀ i ∈ L, i + 1 < cdf.length)
    (b : HdiBest K) (hw : ∀ i, i + 1 < cdf.length → xp.getD (i + 1) 0 - xp.getD i 0 ≤ hdiEps) : hdiLoop cdf xp 0 L b = b := by
  induction L with
  | nil => rfl
  | cons i L ih =>
    have hi := hL i (by simp)
    simp only [hdiLoop]
    split
    · rfl
    · obtain ⟨e, he, hle⟩ := (hdiEnd_spec hc (area := 0) (i := i)).2 (i + 1) (by omega) hi
        (by rw [add_zero]; exact getD_mono hc (by omega) hi)
      obtain ⟨hlt, -, -⟩ := (hdiEnd_spec hc).1 e he
      obtain rfl : e = i + 1 := by omega
      rw [he]
      have : hdiUpdate cdf xp i (i + 1) (cdf.getD i 0) b = b := by
        unfold hdiUpdate
        simp only
        rw [if_pos (hw i hi)]
      simp only [this, ih fun k hk => hL k (List.mem_cons_of_mem _ hk)]

/-- **C107** (what goes wrong). If neighbouring grid points are at most 1e-12 apart, the HDI of area 0 is
the whole range. -/
theorem C107_whole_range {m : Marginal K} (hm : ValidMarginal m)
    (hclose : ∀ i, i + 1 < m.xs.length → m.xs.getD (i + 1) 0 - m.xs.getD i 0 ≤ 1 / 10 ^ 12) (x0 xl : K)
    (hx0 : m.xs.head? = some x0) (hxl : m.xs.getLast? = some xl) : ∃ x, summaryHdi m 0 = .ok ⟨some x0, some x, some xl⟩ := by
  obtain ⟨y0, yl, hy0, hyl, hpl, hend, hmono, -, hlen, -⟩ := hm.hdi_setup
  rw [hx0] at hy0
  rw [hxl] at hyl
  cases hy0
  cases hyl
  have hcl := hm.cs_length
  have h00 : m.xs.getD 0 0 = x0 := by
    rw [List.head?_eq_getElem?] at hx0
    rw [List.getD_eq_getElem?_getD, hx0]; rfl
  have hskip : ∀ b, hdiLoop (0 :: m.cs) (x0 :: m.xs) 0 (List.range ((0 :: m.cs).length - 1)) b = b := by
    intro b
    refine hdiLoop_zero hmono _ (fun i hi => ?_) b fun i hi => ?_
    · have := List.mem_range.1 hi
      change i + 1 < (0 :: m.cs).length
      omega
    · change i + 1 < (0 :: m.cs).length at hi
      rw [List.getD_cons_succ]
      cases i with
      | zero =>
        rw [List.getD_cons_zero, h00, sub_self]
        exact hdiEps_pos.le
      | succ i =>
        rw [List.getD_cons_succ]
        exact hclose i (by simp only [List.length_cons] at hi; omega)
  simp only [summaryHdi, hend, bind, Except.bind, pure, Except.pure, hskip]
  exact ⟨_, rfl⟩

/-- A grid of the two points 0 and `r`. -/
noncomputable def tinyFrame (r : ℝ) : Frame ℝ := ⟨[.int 0, .int 1], [("a", [0, r]), ("weight", [1, 1])]⟩

/-- What is used of it, with an HDI of area `a`. -/
theorem tiny_chain (kde : KdeFn) (hk : KdeOk kde) {r a : ℝ} (hr : 0 < r) (ha : 0 ≤ a) (ha1 : a ≤ 1) :
    ∃ c m, Chain.make { samples := (tinyFrame r).toRaw, name := "tiny", grid := true, config := [⟨.statistics, some .hdi⟩, ⟨.summaryArea, a⟩] } = .ok c ∧
      parameterSummary kde c "a" = summaryHdi m a ∧ ValidMarginal m ∧ m.xs = (linspace 0 1 gridSize).map (r * ·) ∧
      (∃ k, ∀ y ∈ m.ys, y = k) ∧ c.grid = true ∧ (c.cfg .summaryArea : ℝ) = a ∧ c.weights = .ok [1, 1] ∧
      smoothedHistogram kde c "a" true none = .ok m := by
  have hf : (tinyFrame r).WF := ⟨by simp [tinyFrame], by simp [tinyFrame]⟩
  obtain ⟨c, hc, hcs, hw, hp, hpow, hg, -, hn, hcfg⟩ :=
    plain_chain_cfg (K := ℝ) true [⟨.statistics, some .hdi⟩, ⟨.summaryArea, a⟩] rfl ⟨ha, ha1⟩
      (by change (1 : ℝ) ≤ 10; norm_num) rfl rfl (by intro h; cases h) (tinyFrame r) hf
      (by simp [tinyFrame]) (w := [1, 1]) rfl (by simp) "tiny" 1 le_rfl (one_dvd _)
  set base : Chain ℝ := { c with
    samples := twoFrame 1 1
    name := "two"
    cfg := resolveStatistics (((Cfg.default ℝ).apply (modalKw false)).set ⟨.color, none⟩) } with hbase
  have hT : TwoPoint base false 1 1 := ⟨rfl, hw, hp, hpow, hg, rfl, make_height hc, rfl⟩
  obtain ⟨m0, hm0, hv0, hx0, hy0⟩ := hT.marginal one_pos one_pos hk true
  have hne : ("a" : String) ≠ base.weightColumn := by rw [hT.weight]; decide
  have haff := smoothedHistogram_affine kde hr 0 base "a" hne true none (by rw [hT.kde]; simp) hT.weights
    (fun data hd => by rw [hT.data] at hd; cases hd; simp) (by simp)
  rw [hm0] at haff
  have hsame : smoothedHistogram kde c "a" true none = smoothedHistogram kde (rescaled base "a" r 0) "a" true none := by
    have e : c.samples = (rescaled base "a" r 0).samples := by
      rw [hcs]
      simp [tinyFrame, rescaled, hbase, twoFrame]
    have hcol := smoothedHistogram_column kde (c := (rescaled base "a" r 0).withCfg c.cfg) (d := c) rfl rfl rfl
      (by unfold getBins; rw [show ((rescaled base "a" r 0).withCfg c.cfg).samples = c.samples from e.symm]; rfl)
      (by unfold Chain.weights; rw [show ((rescaled base "a" r 0).withCfg c.cfg).samples = c.samples from e.symm]; rfl)
      (p := "a") (by rw [show ((rescaled base "a" r 0).withCfg c.cfg).samples = c.samples from e.symm]) true none
    rw [hcol]
    exact smoothedHistogram_settings kde _ _ (by rw [hcfg]; rfl) (by rw [hcfg]; rfl) (by rw [hcfg]; rfl) _ _ _
  rw [haff] at hsame
  refine ⟨c, rescaleMarginal r 0 ((1 / r) ^ base.power) m0, hc, ?_, ?_, ?_, ?_, hg, by rw [hcfg]; rfl, by rw [Chain.weights, hcs, hw]; rfl, hsame⟩
  · have h1 : c.cfg .statistics = some .hdi := by rw [hcfg]; rfl
    have h2 : (c.cfg .summaryArea : ℝ) = a := by rw [hcfg]; rfl
    simp only [parameterSummary, h1, h2, hsame, Except.map, bind, Except.bind]
  · refine C25_marginal_valid kde hk c [1, 1] ?_ (by simp) "a" true none _ hsame
    rw [Chain.weights, hcs, hw]
    rfl
  · simp [rescaleMarginal, hx0, affine]
  · refine ⟨(1 / r) ^ base.power * (1 / 2), fun y hy => ?_⟩
    simp only [rescaleMarginal, hy0, List.mem_map] at hy
    obtain ⟨z, ⟨v, -, rfl⟩, rfl⟩ := hy
    norm_num

/-- **C107** (negation). A grid chain with the points 0 and 1e-9: the HDI of area 1/2 is narrower than
that of area 0. -/
theorem C107_violated (kde : KdeFn) (hk : KdeOk kde) : ∃ c c' l x u l' x' u',
    Chain.make { samples := (tinyFrame (1 / 10 ^ 9)).toRaw, name := "tiny", grid := true, config := [⟨.statistics, some .hdi⟩, ⟨.summaryArea, 0⟩] } = .ok c ∧
    Chain.make { samples := (tinyFrame (1 / 10 ^ 9)).toRaw, name := "tiny", grid := true, config := [⟨.statistics, some .hdi⟩, ⟨.summaryArea, 1 / 2⟩] } = .ok c' ∧
    parameterSummary kde c "a" = .ok ⟨some l, some x, some u⟩ ∧ parameterSummary kde c' "a" = .ok ⟨some l', some x', some u'⟩ ∧
    u' - l' < u - l := by
  obtain ⟨c, m, hc, hs, hv, hxs, -⟩ := tiny_chain kde hk (r := 1 / 10 ^ 9) (a := 0) (by positivity) le_rfl zero_le_one
  obtain ⟨c', m', hc', hs', hv', hxs', ⟨kk, hys'⟩, -⟩ :=
    tiny_chain kde hk (r := 1 / 10 ^ 9) (a := 1 / 2) (by positivity) (by norm_num) (by norm_num)
  have hn : gridSize = 10000 := by unfold gridSize; rfl
  have hlen : (linspace (0 : ℝ) 1 gridSize).length = 10000 := by rw [linspace_length, hn]
  have hat : ∀ k, k < 10000 → ((linspace (0 : ℝ) 1 gridSize).map ((1 / 10 ^ 9 : ℝ) * ·)).getD k 0 = 1 / 10 ^ 9 * (k / 9999) := by
    intro k hk
    rw [getD_eq (by rw [List.length_map, hlen]; exact hk), List.getElem_map, linspace_getElem, hn]
    norm_num
    ring
  -- the area 0
  obtain ⟨x, hx⟩ := C107_whole_range hv (by
      intro i hi
      rw [hxs, List.length_map, hlen] at hi
      rw [hxs, hat _ hi, hat _ (by omega)]
      push_cast
      rw [← mul_sub, ← sub_div]
      norm_num) 0 (1 / 10 ^ 9)
    (by rw [hxs, List.head?_map, linspace_head (by omega)]; simp) (by rw [hxs, List.getLast?_map, linspace_last (by omega)]; simp)
  -- the area 1/2
  obtain ⟨l', x', u', h', -⟩ := C31_hdi_mass hv' (1 / 2) (by norm_num)
  refine ⟨c, c', _, x, _, l', x', u', hc, hc', hs.trans hx, hs'.trans h', ?_⟩
  obtain ⟨x0, xl, hx0, hxl, hpl, hend, hmono, hxmono, hplen, h01, hm0, hml, hp0, hpl'⟩ := hv'.hdi_setup
  have hcl := hv'.cs_length
  have hyl := hv'.ys_length
  have hl : m'.xs.length = 10000 := by rw [hxs', List.length_map, hlen]
  have hmlen : (masses m').length = 10001 := by simp [masses, hcl, hl]
  have hplace : ∀ k, k < 10000 → (places m').getD (k + 1) 0 = 1 / 10 ^ 9 * (k / 9999) := by
    intro k hk
    rw [hpl, List.getD_cons_succ, hxs', hat k hk]
  have hsum : ∀ L : List ℝ, (∀ y ∈ L, y = kk) → L.sum = L.length * kk := by
    intro L hL
    rw [List.eq_replicate_of_mem hL, List.sum_replicate, List.length_replicate, nsmul_eq_mul]
  have htot : m'.ys.sum = 10000 * kk := by
    rw [hsum _ hys', hyl, hl]
    norm_num
  have hkk : kk ≠ 0 := by
    rintro rfl
    have := hv'.mass_pos
    rw [htot] at this
    simp at this
  have hmass : ∀ k, k < 10000 → (masses m').getD (k + 1) 0 = ((k : ℝ) + 1) / 10000 := by
    intro k hk
    have h1 : k < m'.cs.length := by omega
    rw [show masses m' = 0 :: m'.cs from rfl, List.getD_cons_succ, getD_eq h1, hv'.cumulative k h1, htot,
      hsum _ fun y hy => hys' y (List.mem_of_mem_take hy), List.length_take, min_eq_left (by omega)]
    field_simp
    push_cast
    ring
  obtain ⟨w, hw, hle⟩ := hdiLoop_narrow hmono hxmono hplen (fun y hy => (h01 y hy).2) (area := 1 / 2) (i := 0 + 1) (j := 5000 + 1)
    (by omega) (by omega) (by rw [hmass _ (by omega), hmass _ (by omega)]; norm_num)
    (by
      intro e he hel hme
      obtain ⟨k, rfl⟩ : ∃ k, e = k + 1 := ⟨e - 1, by omega⟩
      rw [hmass _ (by omega), hmass _ (by omega)] at hme
      rw [hplace _ (by omega), hplace _ (by omega)]
      have hk : (5000 : ℝ) ≤ k := by
        push_cast at hme
        linarith
      unfold hdiEps
      push_cast
      nlinarith)
    (List.range ((masses m').length - 1)) List.pairwise_lt_range (List.mem_range.2 (by omega))
    { width := none, lower := x0, upper := xl, startMass := 0, endMass := 1 }
  rw [hplace _ (by omega), hplace _ (by omega)] at hle
  have hgood := hdiLoop_good (xp := places m') hmono (area := 1 / 2) (List.range ((masses m').length - 1))
    { width := none, lower := x0, upper := xl, startMass := 0, endMass := 1 }
    ⟨⟨0, (masses m').length - 1, by omega, by omega, hp0.symm, hpl'.symm,
      hm0.symm, hml.symm, by rw [hml, hm0]; norm_num⟩, by intro w hw; cases hw⟩
  have hwid := hgood.width w hw
  simp only [summaryHdi, hend, bind, Except.bind, pure, Except.pure, Except.ok.injEq, Bound.mk.injEq, Option.some.injEq] at h'
  rw [hpl] at hwid
  rw [← h'.1, ← h'.2.2]
  change _ = _ - _ at hwid
  refine lt_of_le_of_lt (le_trans (le_of_eq hwid.symm) hle) ?_
  unfold hdiEps
  norm_num

/-! ### examples -/

/-- A concrete case for `C107_nested`, for each statistic but the HDI. -/
example (kde : KdeFn) (hk : KdeOk kde) (s : Stat) (hs : s ≠ .hdi) : ∃ c, Chain.make (skewArgs s) = .ok c ∧
    c.weights = .ok [3, 1] ∧ (∀ v ∈ [(3 : ℝ), 1], 0 < v) ∧ c.cfg .statistics ≠ some .hdi ∧
    ∃ m, smoothedHistogram kde (withArea c (1 / 2)) "x" false none = .ok m ∧ ValidMarginal m := by
  obtain ⟨c, m, hc, hst, -, -, -, hw, -, hm, hv, -⟩ := skew_chain kde hk s
  refine ⟨c, hc, hw, by simp, by rw [hst]; simpa using hs, m, ?_, hv⟩
  rw [withArea_marginal, hm]

/-- One for the bisection of the max summary. -/
example : maxLoop ([0, 1, 2, 3, 4, 3, 2, 1, 0] : List ℚ) [0, 1 / 16, 3 / 16, 6 / 16, 10 / 16, 13 / 16, 15 / 16, 1, 1] 4 (9 / 16) 2 4 0
      = .ok (some (3, 6)) ∧
    maxLoop ([0, 1, 2, 3, 4, 3, 2, 1, 0] : List ℚ) [0, 1 / 16, 3 / 16, 6 / 16, 10 / 16, 13 / 16, 15 / 16, 1, 1] 4 (13 / 16) 2 4 0
      = .ok (some (2, 7)) := by
  constructor <;> norm_num [maxLoop, firstWhere, atIndex, bind, Except.bind, pure, Except.pure, abs_of_pos, List.findIdx?_cons]

/-- One for the bands. -/
example : hdiIntervals bimodal (1 / 2) = .ok [(1, 3), (5, 7)] := by decide +kernel

end CC
