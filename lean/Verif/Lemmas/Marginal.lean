import Verif.Spec.Marginal
import Verif.Props.Smoothing
import Verif.Lemmas.Divide

/-! Lemmas about the histogram pipeline of a marginal. -/

set_option linter.unusedSectionVars false

namespace CC
open Spec
section
variable {K : Type} [Field K] [LinearOrder K] [IsStrictOrderedRing K]

theorem binMass_nonneg {edges data w : List K} (hw : ∀ v ∈ w, 0 ≤ v) (i : Nat) :
    0 ≤ binMass edges data w i := by
  unfold binMass
  apply List.sum_nonneg
  intro v hv
  rw [List.zipWith_eq_zipWith_take_min] at hv
  obtain ⟨j, hj, rfl⟩ := List.mem_iff_getElem.1 hv
  rw [List.getElem_zipWith]
  split
  · refine hw _ ?_
    rw [List.getElem_take]
    exact List.getElem_mem _
  · exact le_rfl

theorem histogram_ok_iff {edges data w h : List K} : histogram edges data w = .ok h ↔
    (List.zipWith (fun l r => decide (l ≤ r)) edges edges.tail).all id = true ∧
      h = (List.range (edges.length - 1)).map (binMass edges data w) := by
  simp only [histogram, bind_ok_iff, ensure_ok_iff, pure_ok_iff]
  constructor
  · rintro ⟨_, h1, h2⟩
    exact ⟨h1, h2.symm⟩
  · rintro ⟨h1, h2⟩
    exact ⟨(), h1, h2.symm⟩

/-- Neighbouring entries compared pairwise. -/
theorem all_tail_iff {α : Type} (R : α → α → Bool) (l : List α) :
    (List.zipWith R l l.tail).all id = true ↔ l.IsChain fun a b => R a b = true := by
  induction l with
  | nil => simp
  | cons a l ih =>
    cases l with
    | nil => simp
    | cons b l =>
      simp only [List.tail_cons, List.zipWith_cons_cons, List.all_cons, id, Bool.and_eq_true,
        List.isChain_cons_cons]
      rw [← ih]
      rfl

theorem histDensity_ok {edges data w h : List K} (hw : ∀ v ∈ w, 0 ≤ v)
    (hok : histDensity edges data w = .ok h) :
    edges.Pairwise (· < ·) ∧ h.length = edges.length - 1 ∧ (∀ v ∈ h, 0 ≤ v) := by
  simp only [histDensity, bind_ok_iff, ensure_ok_iff, pure_ok_iff] at hok
  obtain ⟨n, hn, _, h1, _, h2, rfl⟩ := hok
  obtain ⟨h3, rfl⟩ := histogram_ok_iff.1 hn
  rw [all_tail_iff] at h3 h1
  have hinc : edges.Pairwise (· < ·) := by
    rw [← List.isChain_iff_pairwise]
    clear h2 hn
    induction edges with
    | nil => exact .nil
    | cons a l ih =>
      cases l with
      | nil => exact .singleton _
      | cons b l =>
        rw [List.isChain_cons_cons] at h1 h3 ⊢
        exact ⟨lt_of_le_of_ne (of_decide_eq_true h3.1) (of_decide_eq_true h1.1), ih h1.2 h3.2⟩
  refine ⟨hinc, by simp, ?_⟩
  intro v hv
  have hsum : 0 ≤ ((List.range (edges.length - 1)).map (binMass edges data w)).sum :=
    List.sum_nonneg fun x hx => by
      obtain ⟨i, -, rfl⟩ := List.mem_map.1 hx
      exact binMass_nonneg hw i
  obtain ⟨j, hj, rfl⟩ := List.mem_iff_getElem.1 hv
  simp only [List.length_zipWith, List.length_map, List.length_range, List.length_tail] at hj
  simp only [List.getElem_zipWith, List.getElem_map, List.getElem_range, List.getElem_tail]
  refine div_nonneg (div_nonneg (binMass_nonneg hw j) ?_) hsum
  have := List.pairwise_iff_getElem.1 hinc j (j + 1) (by omega) (by omega) (by omega)
  linarith

theorem midpoints_length (e : List K) : (midpoints e).length = e.length - 1 := by
  simp [midpoints]

theorem midpoints_increasing {e : List K} (h : e.Pairwise (· < ·)) :
    (midpoints e).Pairwise (· < ·) := by
  rw [List.pairwise_iff_getElem] at h ⊢
  intro i j hi hj hij
  simp only [midpoints, List.length_zipWith, List.length_tail] at hi hj
  simp only [midpoints, List.getElem_zipWith, List.getElem_tail]
  have h1 := h i j (by omega) (by omega) hij
  have h2 := h (i + 1) (j + 1) (by omega) (by omega) (by omega)
  linarith

end

/-- Interpolation of nonnegative values on a whole grid. -/
theorem mapM_interp1d {xp fp xs ys : List ℝ} (hs : xp.Pairwise (· ≤ ·)) (hl : fp.length = xp.length)
    (hf : ∀ v ∈ fp, 0 ≤ v) (h : xs.mapM (interp1d xp fp) = .ok ys) :
    ys.length = xs.length ∧ ∀ y ∈ ys, 0 ≤ y := by
  rw [mapM_ok_iff] at h
  refine ⟨h.length_eq.symm, ?_⟩
  induction h with
  | nil => simp
  | @cons x y xs ys hxy _ ih =>
    rw [List.forall_mem_cons]
    refine ⟨?_, ih⟩
    obtain ⟨a, b, ha, hb, hax, hxb, rfl⟩ := interp1d_ok_iff.1 hxy
    cases xp with
    | nil => cases ha
    | cons a' xp =>
      cases fp with
      | nil => simp at hl
      | cons f fp =>
        cases ha
        exact polyline_ge (sorted1_zip hs) (fun p hp => hf _ (List.of_mem_zip hp).2) rfl hax

theorem powAll_ok {h g : List ℝ} {p : ℝ} (hh : ∀ v ∈ h, 0 ≤ v) (hok : powAll h p = .ok g) :
    g.length = h.length ∧ ∀ v ∈ g, 0 ≤ v := by
  simp only [powAll, bind_ok_iff, ensure_ok_iff, pure_ok_iff] at hok
  obtain ⟨_, _, rfl⟩ := hok
  refine ⟨by simp, fun v hv => ?_⟩
  obtain ⟨u, hu, rfl⟩ := List.mem_map.1 hv
  exact Real.rpow_nonneg (hh u hu) p

theorem smoothHist_ok {s : Int} {h g : List ℝ} (hh : ∀ v ∈ h, 0 ≤ v) (hok : smoothHist s h = .ok g) :
    g.length = h.length ∧ ∀ v ∈ g, 0 ≤ v := by
  unfold smoothHist at hok
  split at hok
  · cases hok; exact ⟨rfl, hh⟩
  · split at hok
    · cases hok
      obtain ⟨h1, -, h3⟩ := C47_gaussian_filter s.toNat h
      have hbd : ∃ hi, ∀ v ∈ h, v ≤ hi := by
        clear h1 h3
        clear hh
        induction h with
        | nil => exact ⟨0, by simp⟩
        | cons a l ih =>
          obtain ⟨hi, h⟩ := ih
          refine ⟨max a hi, fun p hp => ?_⟩
          rcases List.mem_cons.1 hp with rfl | hp
          · exact le_max_left _ _
          · exact (h p hp).trans (le_max_right _ _)
      obtain ⟨hi, hhi⟩ := hbd
      exact ⟨h1, fun v hv => (h3 0 hi (fun u hu => ⟨hh u hu, hhi u hu⟩) v hv).1⟩
    · cases hok

/-! ### Simpson's rule -/

section
variable {K : Type} [Field K] [LinearOrder K] [IsStrictOrderedRing K]

theorem simpsonOdd_nonneg {h : K} (hh : 0 ≤ h) : ∀ (ys : List K), (∀ y ∈ ys, 0 ≤ y) →
    0 ≤ simpsonOdd h ys
  | [], _ => le_rfl
  | [_], _ => le_rfl
  | [_, _], _ => le_rfl
  | a :: b :: c :: rest, hy => by
    rw [simpsonOdd]
    have ha := hy a (by simp)
    have hb := hy b (by simp)
    have hc := hy c (by simp)
    have := simpsonOdd_nonneg hh (c :: rest) fun y h => hy y (by simp at h ⊢; tauto)
    positivity

/-- The weight of the last but one point is enough to absorb the negative correction. -/
theorem simpsonOdd_ge {h : K} (hh : 0 ≤ h) : ∀ (ys : List K), (∀ y ∈ ys, 0 ≤ y) →
    3 ≤ ys.length → ys.length % 2 = 1 → h / 3 * (4 * ys.getD (ys.length - 2) 0) ≤ simpsonOdd h ys
  | [], _, h, _ => by simp at h
  | [_], _, h, _ => by simp at h
  | [_, _], _, h, _ => by simp at h
  | [a, b, c], hy, _, _ => by
    simp only [simpsonOdd]
    have ha := hy a (by simp)
    have hb := hy b (by simp)
    have hc := hy c (by simp)
    simp only [List.length_cons, List.length_nil, List.getD_eq_getElem?_getD]
    norm_num
    have : 0 ≤ h / 3 := by positivity
    nlinarith [mul_nonneg this ha, mul_nonneg this hc]
  | [a, b, c, d], _, _, h => by simp at h
  | a :: b :: c :: d :: e :: rest, hy, _, hodd => by
    rw [simpsonOdd]
    have ha := hy a (by simp)
    have hb := hy b (by simp)
    have hc := hy c (by simp)
    have ih := simpsonOdd_ge hh (c :: d :: e :: rest) (fun y h => hy y (by simp at h ⊢; tauto))
      (by simp) (by simp at hodd ⊢; omega)
    have e1 : (a :: b :: c :: d :: e :: rest).getD ((a :: b :: c :: d :: e :: rest).length - 2) 0 =
        (c :: d :: e :: rest).getD ((c :: d :: e :: rest).length - 2) 0 := by
      simp [List.getD_eq_getElem?_getD]
    rw [e1]
    have : 0 ≤ h / 3 * (a + 4 * b + c) := by positivity
    linarith

theorem simpson_nonneg {ys xs : List K} (hx : 0 ≤ xs.getD 1 0 - xs.getD 0 0)
    (hy : ∀ y ∈ ys, 0 ≤ y) : 0 ≤ simpson ys xs := by
  have hg : ∀ i, 0 ≤ ys.getD i 0 := by
    intro i
    rw [List.getD_eq_getElem?_getD]
    cases h : ys[i]? with
    | none => simp
    | some v => exact hy v (List.mem_of_getElem? h)
  unfold simpson
  simp only
  generalize xs.getD 1 0 - xs.getD 0 0 = h at hx
  split
  · exact simpsonOdd_nonneg hx _ hy
  · split
    · have := hg 1
      have := hg 0
      positivity
    · rename_i h1 h2
      have hyt : ∀ y ∈ ys.take (ys.length - 1), 0 ≤ y := fun y hy' => hy y (List.mem_of_mem_take hy')
      have g1 := hg (ys.length - 1)
      have g2 := hg (ys.length - 2)
      rcases Nat.lt_or_ge ys.length 4 with hlt | hge
      · have : ys.length = 0 := by omega
        have : ys = [] := List.length_eq_zero_iff.1 this
        subst this
        simp [simpsonOdd]
      · have hlen : (ys.take (ys.length - 1)).length = ys.length - 1 := by simp
        have := simpsonOdd_ge hx (ys.take (ys.length - 1)) hyt (by omega) (by omega)
        have e1 : (ys.take (ys.length - 1)).getD ((ys.take (ys.length - 1)).length - 2) 0 =
            ys.getD (ys.length - 3) 0 := by
          rw [hlen, List.getD_eq_getElem?_getD, List.getD_eq_getElem?_getD, List.getElem?_take_of_lt (by omega)]
          congr 2
        rw [e1] at this
        have g3 := hg (ys.length - 3)
        nlinarith [mul_nonneg hx g1, mul_nonneg hx g2, mul_nonneg hx g3]

end

theorem normCumsum_ok {ys cs : List ℝ} (hy : ∀ y ∈ ys, 0 ≤ y) (hok : normCumsum ys = .ok cs) :
    ys ≠ [] ∧ 0 < ys.sum ∧ cs = (cumsum ys).map (· / ys.sum) := by
  have hne : ys ≠ [] := by
    rintro rfl
    cases hok
  simp only [normCumsum, arrMax, npMax_cumsum hy hne, bind_ok_iff, ensure_ok_iff, pure_ok_iff] at hok
  obtain ⟨_, h1, _, h2, h3⟩ := hok
  cases h1
  have := of_decide_eq_true h2
  exact ⟨hne, lt_of_le_of_ne (List.sum_nonneg hy) (Ne.symm this), h3.symm⟩

end CC
