import Verif.Model.Spectral
import Verif.Props.Diagnostic
import Verif.Props.Affine

/-! # C119: what the Geweke diagnostic says -/

namespace CC
open Spec

/-! ### `_spec` in other units -/

theorem sum_affine (s b : ℝ) (x : List ℝ) : (x.map (affine s b)).sum = s * x.sum + x.length * b := by
  induction x with
  | nil => simp
  | cons v x ih => simp only [List.map_cons, List.sum_cons, ih, affine, List.length_cons]; push_cast; ring

theorem meanOf_affine (s b : ℝ) {x : List ℝ} (hx : x ≠ []) : meanOf (x.map (affine s b)) = s * meanOf x + b := by
  have : (x.length : ℝ) ≠ 0 := by simpa using hx
  unfold meanOf
  rw [sum_affine, List.length_map]
  field_simp

theorem deviations_affine (s b : ℝ) (x : List ℝ) : deviations (x.map (affine s b)) = (deviations x).map (s * ·) := by
  by_cases hx : x = []
  · subst hx; rfl
  · unfold deviations
    rw [meanOf_affine s b hx, List.map_map, List.map_map]
    refine List.map_congr_left fun v _ => ?_
    simp only [Function.comp, affine]
    ring

theorem sum_zipWith_scale (s : ℝ) (l l' : List ℝ) :
    (List.zipWith (· * ·) (l.map (s * ·)) (l'.map (s * ·))).sum = s ^ 2 * (List.zipWith (· * ·) l l').sum := by
  induction l generalizing l' with
  | nil => simp
  | cons v l ih =>
    cases l' with
    | nil => simp
    | cons v' l' => simp only [List.map_cons, List.zipWith_cons_cons, List.sum_cons, ih]; ring

theorem autoCov_affine (s b : ℝ) (x : List ℝ) (k : Nat) : autoCov (x.map (affine s b)) k = s ^ 2 * autoCov x k := by
  unfold autoCov
  rw [deviations_affine, ← List.map_drop, sum_zipWith_scale, List.length_map, mul_div_assoc]

theorem yuleWalker_scale {k : ℝ} (hk : k ≠ 0) (r0 r1 r2 : ℝ) : yuleWalker (k * r0) (k * r1) (k * r2) = yuleWalker r0 r1 r2 := by
  have e : (k * r0) ^ 2 - (k * r1) ^ 2 = k ^ 2 * (r0 ^ 2 - r1 ^ 2) := by ring
  have hk2 : k ^ 2 ≠ 0 := pow_ne_zero 2 hk
  unfold yuleWalker
  rw [e]
  by_cases h : r0 ^ 2 - r1 ^ 2 = 0
  · have n1 : ¬(k ^ 2 * (r0 ^ 2 - r1 ^ 2) ≠ 0) := by rw [h]; simp
    have n2 : ¬(r0 ^ 2 - r1 ^ 2 ≠ 0) := not_not.2 h
    rw [if_neg n1, if_neg n2]
    by_cases h0 : r0 = 0
    · rw [if_pos (show k * r0 = 0 by rw [h0, mul_zero]), if_pos h0]
    · rw [if_neg (mul_ne_zero hk h0), if_neg h0]
      refine Prod.ext ?_ ?_ <;> · simp only; field_simp
  · rw [if_pos (mul_ne_zero hk2 h), if_pos h]
    refine Prod.ext ?_ ?_ <;> · simp only; field_simp

theorem innovation_scale {k : ℝ} (hk : k ≠ 0) (r0 r1 r2 : ℝ) :
    innovation (k * r0) (k * r1) (k * r2) = k * innovation r0 r1 r2 := by
  unfold innovation
  rw [yuleWalker_scale hk]
  ring

/-- In other units the spectral density is multiplied by their square. -/
theorem spec_affine {s : ℝ} (hs : s ≠ 0) (b : ℝ) (x : List ℝ) :
    gewekeSpec (x.map (affine s b)) = Flt.mul (.fin (s ^ 2)) (gewekeSpec x) := by
  have hs2 : 0 < s ^ 2 := by positivity
  unfold gewekeSpec
  simp only [List.length_map, autoCov_affine, innovation_scale hs2.ne', yuleWalker_scale hs2.ne']
  by_cases hl : x.length < 3
  · rw [if_pos hl, if_pos hl]; rfl
  · rw [if_neg hl, if_neg hl]
    set v := innovation (autoCov x 0) (autoCov x 1) (autoCov x 2)
    by_cases hv : 0 < v
    · have hv' : 0 < s ^ 2 * v := by positivity
      rw [if_pos hv, if_pos hv', Real.sq_sqrt hv.le, Real.sq_sqrt hv'.le]
      unfold Flt.div
      simp only
      split
      · simp only [Flt.infTimes, if_pos hv, if_pos hv', Flt.mul, if_pos hs2]
      · simp only [Flt.mul]
        congr 1
        ring
    · rw [if_neg hv, if_neg (not_lt.2 (mul_nonpos_of_nonneg_of_nonpos hs2.le (not_lt.1 hv)))]
      rfl

/-- What `_spec` can return. -/
theorem spec_cases (x : List ℝ) : gewekeSpec x = .nan ∨ 3 ≤ x.length ∧ (gewekeSpec x = .posInf ∨ ∃ v, 0 < v ∧ gewekeSpec x = .fin v) := by
  unfold gewekeSpec
  by_cases hl : x.length < 3
  · exact .inl (if_pos hl)
  · rw [if_neg hl]
    simp only
    set v := innovation (autoCov x 0) (autoCov x 1) (autoCov x 2)
    set d := 1 - ((yuleWalker (autoCov x 0) (autoCov x 1) (autoCov x 2)).1 + (yuleWalker (autoCov x 0) (autoCov x 1) (autoCov x 2)).2)
    by_cases hv : 0 < v
    · rw [if_pos hv, Real.sq_sqrt hv.le]
      refine .inr ⟨by omega, ?_⟩
      unfold Flt.div
      simp only
      split
      · exact .inl (by simp [Flt.infTimes, hv])
      · next h => exact .inr ⟨v / d ^ 2, div_pos hv (lt_of_le_of_ne (sq_nonneg d) (Ne.symm h)), rfl⟩
    · exact .inl (if_neg hv)

theorem fltMean_of_length {x : List ℝ} (hx : 3 ≤ x.length) : fltMean x = .fin (meanOf x) := by
  have : (x.length : ℝ) ≠ 0 := by
    have : x.length ≠ 0 := by omega
    exact_mod_cast this
  simp only [fltMean, Flt.div, if_neg this, meanOf]

theorem div_length {x : List ℝ} (hx : 3 ≤ x.length) (v : ℝ) : Flt.div (.fin v) (.fin (x.length : ℝ)) = .fin (v / x.length) := by
  have : (x.length : ℝ) ≠ 0 := by
    have : x.length ≠ 0 := by omega
    exact_mod_cast this
  simp only [Flt.div, if_neg this]

/-- The z score of two windows whose spectral densities are finite. -/
theorem gewekeZ_fin {w : List ℝ × List ℝ} {u v : ℝ} (h1 : 3 ≤ w.1.length) (h2 : 3 ≤ w.2.length) (hu : 0 < u) (hv : 0 < v)
    (e1 : gewekeSpec w.1 = .fin u) (e2 : gewekeSpec w.2 = .fin v) :
    gewekeZ gewekeSpec w = .fin ((meanOf w.1 - meanOf w.2) / √(u / w.1.length + v / w.2.length)) := by
  have l1 : (0 : ℝ) < w.1.length := by
    have : 0 < w.1.length := by omega
    exact_mod_cast this
  have l2 : (0 : ℝ) < w.2.length := by
    have : 0 < w.2.length := by omega
    exact_mod_cast this
  have hp : 0 < u / w.1.length + v / w.2.length := by positivity
  unfold gewekeZ
  simp only [e1, e2, div_length h1, div_length h2, fltMean_of_length h1, fltMean_of_length h2, Flt.add, Flt.sub, Flt.neg, fltSqrt,
    if_neg (not_lt.2 hp.le)]
  simp only [Flt.div, if_neg (Real.sqrt_pos.2 hp).ne', sub_eq_add_neg]

theorem gewekeZ_nan {w : List ℝ × List ℝ} (h : gewekeSpec w.1 = .nan ∨ gewekeSpec w.2 = .nan) : gewekeZ gewekeSpec w = .nan := by
  unfold gewekeZ
  have : fltSqrt (((gewekeSpec w.1).div (.fin (w.1.length : ℝ))).add ((gewekeSpec w.2).div (.fin (w.2.length : ℝ)))) = .nan := by
    rcases h with h | h <;> rw [h]
    · rfl
    · cases ((gewekeSpec w.1).div (.fin (w.1.length : ℝ))) <;> rfl
  simp only [this]
  cases ((fltMean w.1).sub (fltMean w.2)) <;> rfl

theorem gewekeZ_inf {w : List ℝ × List ℝ} (h1 : 3 ≤ w.1.length) (h2 : 3 ≤ w.2.length)
    (h : gewekeSpec w.1 = .posInf ∧ gewekeSpec w.2 ≠ .nan ∨ gewekeSpec w.1 ≠ .nan ∧ gewekeSpec w.2 = .posInf) :
    gewekeZ gewekeSpec w = .fin 0 := by
  have l1 : ¬((w.1.length : ℝ) < 0) := by simp
  have l2 : ¬((w.2.length : ℝ) < 0) := by simp
  have i1 : Flt.div .posInf (.fin (w.1.length : ℝ)) = .posInf := if_neg l1
  have i2 : Flt.div .posInf (.fin (w.2.length : ℝ)) = .posInf := if_neg l2
  have : fltSqrt (((gewekeSpec w.1).div (.fin (w.1.length : ℝ))).add ((gewekeSpec w.2).div (.fin (w.2.length : ℝ)))) = .posInf := by
    rcases spec_cases w.1 with c1 | ⟨-, c1 | ⟨u, hu, c1⟩⟩ <;> rcases spec_cases w.2 with c2 | ⟨-, c2 | ⟨v, hv, c2⟩⟩ <;>
      simp [c1, c2] at h <;>
      simp only [c1, c2, div_length h1, div_length h2, i1, i2, Flt.add, fltSqrt]
  unfold gewekeZ
  simp only [this, fltMean_of_length h1, fltMean_of_length h2]
  simp only [Flt.add, Flt.sub, Flt.neg, Flt.div]

/-- A z score does not depend on the units and the origin of the parameter. -/
theorem gewekeZ_affine {s : ℝ} (hs : 0 < s) (b : ℝ) (w : List ℝ × List ℝ) :
    gewekeZ gewekeSpec (w.1.map (affine s b), w.2.map (affine s b)) = gewekeZ gewekeSpec w := by
  have e1 := spec_affine hs.ne' b w.1
  have e2 := spec_affine hs.ne' b w.2
  have hs2 : 0 < s ^ 2 := by positivity
  by_cases hn : gewekeSpec w.1 = .nan ∨ gewekeSpec w.2 = .nan
  · rw [gewekeZ_nan hn, gewekeZ_nan]
    rcases hn with hn | hn
    · rw [hn] at e1; exact .inl e1
    · rw [hn] at e2; exact .inr e2
  · push Not at hn
    obtain ⟨h1, c1⟩ := (spec_cases w.1).resolve_left hn.1
    obtain ⟨h2, c2⟩ := (spec_cases w.2).resolve_left hn.2
    have n1 : gewekeSpec (w.1.map (affine s b)) ≠ .nan := by
      rw [e1]; rcases c1 with c | ⟨u, -, c⟩ <;> rw [c] <;> simp [Flt.mul, Flt.infTimes, hs2]
    have n2 : gewekeSpec (w.2.map (affine s b)) ≠ .nan := by
      rw [e2]; rcases c2 with c | ⟨u, -, c⟩ <;> rw [c] <;> simp [Flt.mul, Flt.infTimes, hs2]
    by_cases hi : gewekeSpec w.1 = .posInf ∨ gewekeSpec w.2 = .posInf
    · rw [gewekeZ_inf h1 h2 (by tauto), gewekeZ_inf (by simpa using h1) (by simpa using h2)]
      rcases hi with hi | hi
      · refine .inl ⟨?_, n2⟩
        simp only [e1, hi, Flt.mul, Flt.infTimes, if_pos hs2]
      · refine .inr ⟨n1, ?_⟩
        simp only [e2, hi, Flt.mul, Flt.infTimes, if_pos hs2]
    · push Not at hi
      obtain ⟨u, hu, c1⟩ := c1.resolve_left hi.1
      obtain ⟨v, hv, c2⟩ := c2.resolve_left hi.2
      rw [c1] at e1
      rw [c2] at e2
      rw [gewekeZ_fin h1 h2 hu hv c1 c2, gewekeZ_fin (by simpa using h1) (by simpa using h2) (mul_pos hs2 hu) (mul_pos hs2 hv) e1 e2]
      simp only [List.length_map]
      have h1' : w.1 ≠ [] := by rintro h; rw [h] at h1; simp at h1
      have h2' : w.2 ≠ [] := by rintro h; rw [h] at h2; simp at h2
      rw [meanOf_affine s b h1', meanOf_affine s b h2', mul_div_assoc, mul_div_assoc, ← mul_add, Real.sqrt_mul hs2.le,
        Real.sqrt_sq hs.le]
      congr 1
      rw [show s * meanOf w.1 + b - (s * meanOf w.2 + b) = s * (meanOf w.1 - meanOf w.2) by ring]
      exact mul_div_mul_left _ _ hs.ne'

/-! ### Units and origin -/

theorem pyTake_map {α β : Type} (f : α → β) (k : Int) (x : List α) : pyTake k (x.map f) = (pyTake k x).map f := by
  unfold pyTake
  split <;> simp [List.map_take]

theorem pyDrop_map {α β : Type} (f : α → β) (k : Int) (x : List α) : pyDrop k (x.map f) = (pyDrop k x).map f := by
  unfold pyDrop
  split <;> simp [List.map_drop]

/-- Columns of which some are given in other units. -/
def Spec.SameUpTo (s b : ℝ) (x x' : List ℝ) : Prop := x' = x ∨ x' = x.map (affine s b)

theorem rescaled_getMany (c : Chain ℝ) (col : String) (s b : ℝ) (cols : List String) :
    (∃ e, c.samples.getMany cols = .error e ∧ (rescaled c col s b).samples.getMany cols = .error e) ∨
      ∃ X X', c.samples.getMany cols = .ok X ∧ (rescaled c col s b).samples.getMany cols = .ok X' ∧
        List.Forall₂ (SameUpTo s b) X X' := by
  induction cols with
  | nil => exact .inr ⟨[], [], rfl, rfl, .nil⟩
  | cons p ps ih =>
    have hg : (∃ e, c.samples.get p = .error e ∧ (rescaled c col s b).samples.get p = .error e) ∨
        ∃ x x', c.samples.get p = .ok x ∧ (rescaled c col s b).samples.get p = .ok x' ∧ SameUpTo s b x x' := by
      rw [rescaled_get]
      cases h : c.samples.get p with
      | error e => exact .inl ⟨e, rfl, by split <;> rfl⟩
      | ok x =>
        refine .inr ⟨x, if p = col then x.map (affine s b) else x, rfl, by split <;> rfl, ?_⟩
        split
        · exact .inr rfl
        · exact .inl rfl
    simp only [Frame.getMany]
    rcases hg with ⟨e, h, h'⟩ | ⟨x, x', h, h', hx⟩
    · exact .inl ⟨e, by rw [h]; rfl, by rw [h']; rfl⟩
    · rcases ih with ⟨e, i, i'⟩ | ⟨X, X', i, i', hX⟩
      · exact .inl ⟨e, by rw [h, i]; rfl, by rw [h', i']; rfl⟩
      · exact .inr ⟨x :: X, x' :: X', by rw [h, i]; rfl, by rw [h', i']; rfl, .cons hx hX⟩

/-- **C119** (units). The verdict of `geweke` does not depend on the units and the origin of a parameter, whatever the normality test. -/
theorem C119_units (normaltest : List (Flt ℝ) → Flt ℝ) (first last threshold : ℝ) (c : Chain ℝ) (col : String) {s : ℝ} (hs : 0 < s)
    (b : ℝ) : gewekeOne gewekeSpec normaltest first last threshold (rescaled c col s b) =
      gewekeOne gewekeSpec normaltest first last threshold c := by
  have hd : (rescaled c col s b).dataColumns = c.dataColumns := by
    unfold Chain.dataColumns
    have : (rescaled c col s b).samples.columns = c.samples.columns := by
      simp only [Frame.columns, rescaled, List.map_map]
      refine List.map_congr_left fun e _ => ?_
      simp only [Function.comp]
      split <;> rfl
    rw [this]
    rfl
  unfold gewekeOne
  rw [hd]
  refine bind_congr fun _ _ => ?_
  rcases rescaled_getMany c col s b c.dataColumns with ⟨e, h, h'⟩ | ⟨X, X', h, h', hX⟩
  · rw [h, h']; rfl
  · simp only [h, h', bind, Except.bind]
    change (ensure _ _ >>= fun _ => _) = (ensure _ _ >>= fun _ => _)
    refine bind_congr fun _ _ => ?_
    have : (gewekeWindows first last (rescaled c col s b).walkers (rescaled c col s b).samples.index.length X').map (gewekeZ gewekeSpec) =
        (gewekeWindows first last c.walkers c.samples.index.length X).map (gewekeZ gewekeSpec) := by
      have ew : (rescaled c col s b).walkers = c.walkers := rfl
      have ei : (rescaled c col s b).samples.index.length = c.samples.index.length := rfl
      rw [ew, ei]
      generalize c.samples.index.length = len
      simp only [gewekeWindows, List.map_flatMap, List.map_map]
      congr 1
      funext k
      clear h h'
      induction hX with
      | nil => rfl
      | cons hx _ ih =>
        simp only [List.map_cons, List.cons.injEq]
        refine ⟨?_, ih⟩
        rcases hx with rfl | rfl
        · rfl
        · simp only [Function.comp, ← List.map_drop, ← List.map_take, pyTake_map, pyDrop_map]
          exact gewekeZ_affine hs b (_, _)
    simp only [this]

/-! ### Short first parts -/

theorem spec_short {x : List ℝ} (h : x.length < 3) : gewekeSpec x = .nan := if_pos h

theorem innovation_eq {r0 r1 r2 : ℝ} (h : r0 ^ 2 - r1 ^ 2 ≠ 0) :
    innovation r0 r1 r2 = (r0 - r2) * (r0 ^ 2 + r0 * r2 - 2 * r1 ^ 2) / (r0 ^ 2 - r1 ^ 2) := by
  unfold innovation yuleWalker
  rw [if_pos h, eq_div_iff h]
  have e : ∀ x : ℝ, x / (r0 ^ 2 - r1 ^ 2) * (r0 ^ 2 - r1 ^ 2) = x := fun x => div_mul_cancel₀ x h
  simp only
  rw [sub_mul, add_mul, mul_assoc, mul_assoc r2, e, e]
  ring

/-- Three steps, unless the first equals the last, have no spectral density. -/
theorem spec_three {u v w : ℝ} (h : u ≠ w) : gewekeSpec [u, v, w] = .nan := by
  set m := (u + v + w) / 3 with hm
  have hmean : meanOf [u, v, w] = m := by
    simp only [meanOf, List.sum_cons, List.sum_nil, List.length_cons, List.length_nil]
    push_cast
    rw [hm]; ring
  set p := u - m with hp
  set q := w - m with hq
  have hv : v - m = -(p + q) := by rw [hp, hq, hm]; ring
  have hpq : p ≠ q := by intro h'; exact h (by linarith)
  have hd : deviations [u, v, w] = [p, -(p + q), q] := by
    simp only [deviations, hmean, List.map_cons, List.map_nil, hv, hp, hq]
  have e0 : autoCov [u, v, w] 0 = 2 / 3 * (p ^ 2 + p * q + q ^ 2) := by
    simp only [autoCov, hd, List.drop_zero, List.zipWith_cons_cons, List.zipWith_nil_left, List.sum_cons, List.sum_nil, List.length_cons,
      List.length_nil]
    push_cast
    ring
  have e1 : autoCov [u, v, w] 1 = -(p + q) ^ 2 / 2 := by
    simp only [autoCov, hd, List.drop_succ_cons, List.drop_zero, List.zipWith_cons_cons, List.zipWith_nil_right,
      List.sum_cons, List.sum_nil, List.length_cons, List.length_nil]
    push_cast
    ring
  have e2 : autoCov [u, v, w] 2 = p * q := by
    simp only [autoCov, hd, List.drop_succ_cons, List.drop_zero, List.zipWith_cons_cons, List.zipWith_nil_right,
      List.sum_cons, List.sum_nil, List.length_cons, List.length_nil]
    push_cast
    ring
  have hpq2 : 0 < (p - q) ^ 2 := by
    have := sub_ne_zero.2 hpq
    positivity
  have hdet : 0 < (2 / 3 * (p ^ 2 + p * q + q ^ 2)) ^ 2 - (-(p + q) ^ 2 / 2) ^ 2 := by
    have : (2 / 3 * (p ^ 2 + p * q + q ^ 2)) ^ 2 - (-(p + q) ^ 2 / 2) ^ 2 =
        (p - q) ^ 2 * (7 * p ^ 2 + 10 * p * q + 7 * q ^ 2) / 36 := by ring
    rw [this]
    have h7 : 0 < 7 * p ^ 2 + 10 * p * q + 7 * q ^ 2 := by nlinarith [sq_nonneg (p + q)]
    positivity
  unfold gewekeSpec
  rw [if_neg (by simp)]
  simp only [e0, e1, e2]
  refine if_neg (not_lt.2 ?_)
  rw [innovation_eq hdet.ne']
  have : (2 / 3 * (p ^ 2 + p * q + q ^ 2)) ^ 2 + 2 / 3 * (p ^ 2 + p * q + q ^ 2) * (p * q) - 2 * (-(p + q) ^ 2 / 2) ^ 2 =
      -((p ^ 2 + 4 * p * q + q ^ 2) ^ 2 / 18) := by ring
  rw [this]
  refine div_nonpos_of_nonpos_of_nonneg (mul_nonpos_of_nonneg_of_nonpos ?_ (neg_nonpos.2 (div_nonneg (sq_nonneg _) (by norm_num)))) hdet.le
  nlinarith [sq_nonneg (p - q), sq_nonneg (p + q)]

/-- The test of scipy returns NaN if a z score is NaN (`nan_policy="propagate"`). -/
def Spec.NanWins (normaltest : List (Flt ℝ) → Flt ℝ) : Prop := ∀ zs, .nan ∈ zs → normaltest zs = .nan

/-- **C119** (short chains). A chain does not pass if the first part of one of its walkers has fewer than three steps, or three of which
the first and the last differ. With `first=0.1` these are all chains of fewer than 30 steps, and nearly all of fewer than 40. -/
theorem C119_short {normaltest : List (Flt ℝ) → Flt ℝ} (hn : NanWins normaltest) (a : Args ℝ) (c : Chain ℝ) (hwf : a.samples.WF)
    (h : Chain.make a = .ok c) (m n : Nat) (hwalk : c.walkers = m) (hrows : c.samples.index.length = m * n) {first : ℝ}
    (last threshold : ℝ) (hfirst : 0 ≤ first) {p : String} {x : List ℝ} (hp : p ∈ c.dataColumns) (hx : (p, x) ∈ c.samples.cols)
    {k : Nat} (hk : k < m) (hs : first * n < 3 ∨ first * n < 4 ∧ x.getD (k * n) 0 ≠ x.getD (k * n + 2) 0) :
    gewekeOne gewekeSpec normaltest first last threshold c = .ok false := by
  obtain ⟨hW, -, -, -, hw1, -⟩ := make_WF hwf h
  obtain ⟨X, hX, -⟩ := getMany_all (f := c.samples) (cols := c.dataColumns) (fun p hp => (List.mem_filter.1 hp).1) hW (fun _ => true)
  have hxX : x ∈ X := by
    have hF := getMany_forall₂ hX
    have hnd := hW.1
    clear hX
    generalize c.dataColumns = cols at hF hp
    induction hF with
    | nil => cases hp
    | cons hq _ ih =>
      rcases List.mem_cons.1 hp with rfl | hp
      · have := (get_of_mem (f := c.samples) hnd hq).symm.trans (get_of_mem (f := c.samples) hnd hx)
        cases this
        simp
      · exact List.mem_cons_of_mem _ (ih hp)
  have hm : 0 < m := by omega
  have h1 : (c.samples.index.length % c.walkers == 0) = true := by rw [hrows, hwalk]; simp
  have h2 : decide (0 < c.walkers) = true := by rw [hwalk]; exact decide_eq_true hm
  simp only [gewekeOne, hX, h1, h2, ensure, if_true, bind, Except.bind, pure, Except.pure]
  have hdiv : m * n / m = n := Nat.mul_div_cancel_left n hm
  have hf0 : 0 ≤ ⌊first * (n : ℝ)⌋ := Int.floor_nonneg.2 (by positivity)
  have hlt : first * n < 4 := by rcases hs with hs | hs; linarith; exact hs.1
  have hf4 : ⌊first * (n : ℝ)⌋ < 4 := Int.floor_lt.2 (by push_cast; exact hlt)
  set blk := (x.drop (k * n)).take n with hblk
  have hnan : gewekeSpec (pyTake ⌊first * (n : ℝ)⌋ blk) = .nan := by
    rw [pyTake, if_pos hf0]
    by_cases hl : (blk.take ⌊first * (n : ℝ)⌋.toNat).length < 3
    · exact spec_short hl
    · have hlen : (blk.take ⌊first * (n : ℝ)⌋.toNat).length = 3 := by
        rw [List.length_take] at hl ⊢
        omega
      rw [List.length_take] at hlen
      have hb3 : 3 ≤ blk.length := by omega
      have hf3 : ⌊first * (n : ℝ)⌋.toNat = 3 := by omega
      have hne := (hs.resolve_left (by
        intro h3
        have : ⌊first * (n : ℝ)⌋ < 3 := Int.floor_lt.2 (by push_cast; exact h3)
        omega)).2
      have hg : ∀ i < 3, blk.getD i 0 = x.getD (k * n + i) 0 := by
        intro i hi
        have hi' : i < blk.length := by omega
        have hin : i < n := by
          have := hi'
          rw [hblk, List.length_take] at this
          omega
        simp only [hblk, List.getD_eq_getElem?_getD, List.getElem?_take, if_pos hin, List.getElem?_drop]
      have h0 := hg 0 (by norm_num)
      have h2' := hg 2 (by norm_num)
      clear_value blk
      match blk, hb3 with
      | u :: v :: w :: t, _ =>
        rw [hf3]
        simp only [List.getD_cons_zero, List.getD_cons_succ, Nat.add_zero] at h0 h2'
        exact spec_three (by rw [h0, h2']; exact hne)
  rw [hn]
  · rfl
  · refine List.mem_map.2 ⟨(pyTake ⌊first * (n : ℝ)⌋ blk, pyDrop ⌊(1 - last) * (n : ℝ)⌋ blk), ?_, gewekeZ_nan (.inl hnan)⟩
    simp only [gewekeWindows, hrows, hwalk, hdiv, gewekeBounds]
    exact List.mem_flatMap.2 ⟨k, List.mem_range.2 hk, List.mem_map.2 ⟨x, hxX, rfl⟩⟩

/-! ### The order of walkers -/

/-- The test of scipy does not depend on the order of the z scores. -/
def Spec.Unordered (normaltest : List (Flt ℝ) → Flt ℝ) : Prop := ∀ zs zs', zs.Perm zs' → normaltest zs = normaltest zs'

/-- **C119** (walkers). The verdict of `geweke` does not depend on the order of the walkers. -/
theorem C119_walkers {normaltest : List (Flt ℝ) → Flt ℝ} (hn : Unordered normaltest) (a a' : Args ℝ) (c c' : Chain ℝ)
    (hwf : a.samples.WF) (h : Chain.make a = .ok c) (hwf' : a'.samples.WF) (h' : Chain.make a' = .ok c') (m n : Nat)
    (hwalk : c.walkers = m) (hrows : c.samples.index.length = m * n) (hwalk' : c'.walkers = m)
    (hrows' : c'.samples.index.length = m * n) (hcols : c'.dataColumns = c.dataColumns) (σ : Equiv.Perm (Fin m))
    (hσ : ∀ p x x', (p, x) ∈ c.samples.cols → (p, x') ∈ c'.samples.cols → ∀ k, steps x' m n k = steps x m n (σ k))
    (first last threshold : ℝ) (hfirst : 0 ≤ first) (hlast : last ≤ 1) :
    gewekeOne gewekeSpec normaltest first last threshold c' = gewekeOne gewekeSpec normaltest first last threshold c := by
  obtain ⟨X, hX, e⟩ := C23_geweke_windows gewekeSpec normaltest a c hwf h m n hwalk hrows first last threshold hfirst hlast
  obtain ⟨X', hX', e'⟩ := C23_geweke_windows gewekeSpec normaltest a' c' hwf' h' m n hwalk' hrows' first last threshold hfirst hlast
  rw [e, e']
  congr 2
  refine hn _ _ ?_
  have hsame : ∀ k, X'.map (fun x => (firstWindow first x m n k, lastWindow last x m n k)) =
      X.map fun x => (firstWindow first x m n (σ k), lastWindow last x m n (σ k)) := by
    intro k
    rw [hcols] at hX'
    clear e e'
    generalize c.dataColumns = cols at hX hX'
    induction hX generalizing X' with
    | nil => cases hX'; rfl
    | cons hp _ ih =>
      cases hX' with
      | cons hp' hX' =>
        simp only [List.map_cons, firstWindow, lastWindow, hσ _ _ _ hp hp' k]
        congr 1
        exact ih _ hX'
  simp only [hsame]
  refine List.Perm.map _ ?_
  have : (List.finRange m).flatMap (fun k => X.map fun x => (firstWindow first x m n (σ k), lastWindow last x m n (σ k))) =
      ((List.finRange m).map σ).flatMap fun k => X.map fun x => (firstWindow first x m n k, lastWindow last x m n k) := by
    rw [List.flatMap_map]
  rw [this]
  exact List.Perm.flatMap_right _ (Equiv.Perm.map_finRange_perm σ)

/-! ### Drift -/

/-- The `k`-th central moment. -/
noncomputable def Spec.centralMoment (k : Nat) (zs : List ℝ) : ℝ :=
  (zs.map fun z => (z - zs.sum / zs.length) ^ k).sum / zs.length

/-- The skewness. -/
noncomputable def Spec.skewness (zs : List ℝ) : ℝ := centralMoment 3 zs / √(centralMoment 2 zs) ^ 3

/-- The kurtosis. -/
noncomputable def Spec.kurtosis (zs : List ℝ) : ℝ := centralMoment 4 zs / centralMoment 2 zs ^ 2

/-- `scipy.stats.normaltest` is the test of D'Agostino and Pearson: its p-value for numbers is computed from how many there are, from
their skewness and from their kurtosis. -/
def Spec.ShapeOnly (normaltest : List (Flt ℝ) → Flt ℝ) : Prop :=
  ∃ p : Nat → ℝ → ℝ → Flt ℝ, ∀ zs : List ℝ, normaltest (zs.map .fin) = p zs.length (skewness zs) (kurtosis zs)

theorem centralMoment_shift (k : Nat) (zs : List ℝ) (d : ℝ) : centralMoment k (zs.map (· + d)) = centralMoment k zs := by
  by_cases hz : zs = []
  · subst hz; rfl
  · have hl : (zs.length : ℝ) ≠ 0 := by simp [hz]
    have hs : (zs.map (· + d)).sum = zs.sum + zs.length * d := by
      simp [List.sum_map_add]
    unfold centralMoment
    rw [List.length_map, hs, List.map_map]
    congr 3
    funext z
    simp only [Function.comp]
    congr 1
    field_simp
    ring

theorem ShapeOnly_shift {normaltest : List (Flt ℝ) → Flt ℝ} (h : ShapeOnly normaltest) (zs : List ℝ) (d : ℝ) :
    normaltest ((zs.map (· + d)).map .fin) = normaltest (zs.map .fin) := by
  obtain ⟨p, hp⟩ := h
  rw [hp, hp]
  simp only [skewness, kurtosis, centralMoment_shift, List.length_map]

/-- The last half of the walkers of the counterexample. -/
def tailSteps : List ℝ := -1 :: (List.replicate 18 0 ++ [1])

/-- One walker of 40 steps that starts at `t` and ends around 0. -/
def driftSteps (t : ℝ) : List ℝ := [t, t + 1, t + 1, t + 2] ++ (List.replicate 16 0 ++ tailSteps)

theorem driftSteps_length (t : ℝ) : (driftSteps t).length = 40 := by simp [driftSteps, tailSteps]

theorem spec_head (t : ℝ) : gewekeSpec [t, t + 1, t + 1, t + 2] = .fin (1 / 2) ∧ meanOf [t, t + 1, t + 1, t + 2] = t + 1 := by
  have hm : meanOf [t, t + 1, t + 1, t + 2] = t + 1 := by
    simp only [meanOf, List.sum_cons, List.sum_nil, List.length_cons, List.length_nil]
    push_cast
    ring
  have hd : deviations [t, t + 1, t + 1, t + 2] = [-1, 0, 0, 1] := by
    simp only [deviations, hm, List.map_cons, List.map_nil]
    congr 1 <;> ring_nf
  have e0 : autoCov [t, t + 1, t + 1, t + 2] 0 = 1 / 2 := by simp [autoCov, hd]; norm_num
  have e1 : autoCov [t, t + 1, t + 1, t + 2] 1 = 0 := by simp [autoCov, hd]
  have e2 : autoCov [t, t + 1, t + 1, t + 2] 2 = 0 := by simp [autoCov, hd]
  refine ⟨?_, hm⟩
  have hy : yuleWalker (1 / 2) 0 0 = (0, 0) := by unfold yuleWalker; norm_num
  have hi : innovation (1 / 2) 0 0 = 1 / 2 := by unfold innovation; rw [hy]; norm_num
  unfold gewekeSpec
  rw [if_neg (by simp)]
  simp only [e0, e1, e2, hy, hi]
  rw [if_pos (by norm_num), Real.sq_sqrt (by norm_num)]
  simp [Flt.div]

theorem spec_tail : gewekeSpec tailSteps = .fin (1 / 10) ∧ meanOf tailSteps = 0 ∧ tailSteps.length = 20 := by
  have hl : tailSteps.length = 20 := by simp [tailSteps]
  have hm : meanOf tailSteps = 0 := by simp [meanOf, tailSteps]
  have hd : deviations tailSteps = tailSteps := by simp [deviations, hm]
  have e0 : autoCov tailSteps 0 = 1 / 10 := by
    simp only [autoCov, hd, hl]
    norm_num [tailSteps, List.replicate]
  have e1 : autoCov tailSteps 1 = 0 := by
    simp only [autoCov, hd, hl]
    norm_num [tailSteps, List.replicate]
  have e2 : autoCov tailSteps 2 = 0 := by
    simp only [autoCov, hd, hl]
    norm_num [tailSteps, List.replicate]
  refine ⟨?_, hm, hl⟩
  have hy : yuleWalker (1 / 10) 0 0 = (0, 0) := by unfold yuleWalker; norm_num
  have hi : innovation (1 / 10) 0 0 = 1 / 10 := by unfold innovation; rw [hy]; norm_num
  unfold gewekeSpec
  rw [if_neg (by rw [hl]; norm_num)]
  simp only [e0, e1, e2, hy, hi]
  rw [if_pos (by norm_num), Real.sq_sqrt (by norm_num)]
  simp [Flt.div]

/-- The z score of such a walker. -/
theorem drift_z (z : ℝ) : gewekeZ gewekeSpec
    ([√(13 / 100) * z - 1, √(13 / 100) * z - 1 + 1, √(13 / 100) * z - 1 + 1, √(13 / 100) * z - 1 + 2], tailSteps) = .fin z := by
  set t := √(13 / 100) * z - 1 with ht
  obtain ⟨h1, m1⟩ := spec_head t
  obtain ⟨h2, m2, l2⟩ := spec_tail
  rw [gewekeZ_fin (w := ([t, t + 1, t + 1, t + 2], tailSteps)) (by simp) (by rw [l2]; norm_num) (by norm_num) (by norm_num) h1 h2]
  simp only [m1, m2, l2, List.length_cons, List.length_nil]
  have hD : (0 : ℝ) < √(13 / 100) := Real.sqrt_pos.2 (by norm_num)
  have : (1 / 2 / ((0 + 1 + 1 + 1 + 1 : ℕ) : ℝ) + 1 / 10 / ((20 : ℕ) : ℝ) : ℝ) = 13 / 100 := by push_cast; norm_num
  rw [this, ht]
  congr 1
  rw [div_eq_iff hD.ne']
  ring

theorem drop_blocks {α β : Type} (f : α → List β) (n : Nat) (hf : ∀ a, (f a).length = n) (l : List α) (k : Nat) :
    (l.flatMap f).drop (k * n) = (l.drop k).flatMap f := by
  induction k generalizing l with
  | zero => simp
  | succ k ih =>
    cases l with
    | nil => simp
    | cons a l =>
      rw [List.flatMap_cons, List.drop_succ_cons, Nat.succ_mul, Nat.add_comm, ← List.drop_drop, ← hf a, List.drop_left, hf a, ih]

/-- The columns of the counterexample: one walker for each z score. -/
noncomputable def driftColumn (zs : List ℝ) : List ℝ := zs.flatMap fun z => driftSteps (√(13 / 100) * z - 1)

theorem driftColumn_length (zs : List ℝ) : (driftColumn zs).length = zs.length * 40 := by
  simp [driftColumn, List.length_flatMap, driftSteps_length]

/-- The windows compared in the counterexample. -/
theorem drift_windows (zs : List ℝ) (hne : zs ≠ []) :
    (gewekeWindows (1 / 10) (1 / 2) zs.length (zs.length * 40) [driftColumn zs]).map (gewekeZ gewekeSpec) = zs.map .fin := by
  have hl : 0 < zs.length := List.length_pos_iff.2 hne
  have hdiv : zs.length * 40 / zs.length = 40 := Nat.mul_div_cancel_left 40 hl
  have hb : gewekeBounds (1 / 10) (1 / 2) 40 = (4, 20) := by
    unfold gewekeBounds
    refine Prod.ext ?_ ?_
    · simp only; rw [Int.floor_eq_iff]; norm_num
    · simp only; rw [Int.floor_eq_iff]; norm_num
  have hmap : ∀ (g : Nat → Flt ℝ) (l : List Nat), l.flatMap (fun a => [g a]) = l.map g := fun g l => List.map_eq_flatMap.symm
  simp only [gewekeWindows, hdiv, hb, List.map_cons, List.map_nil, List.map_flatMap, hmap]
  refine List.ext_getElem (by simp) fun i h1 h2 => ?_
  have hi : i < zs.length := by simpa using h2
  simp only [List.getElem_map, List.getElem_range]
  have hblk : ((driftColumn zs).drop (i * 40)).take 40 = driftSteps (√(13 / 100) * zs[i] - 1) := by
    unfold driftColumn
    rw [drop_blocks _ 40 (fun z => driftSteps_length _), List.drop_eq_getElem_cons hi, List.flatMap_cons]
    have := driftSteps_length (√(13 / 100) * zs[i] - 1)
    rw [List.take_append_of_le_length (by omega), List.take_of_length_le (by omega)]
  rw [hblk, ← drift_z zs[i]]
  congr 1

/-- **C119** is violated. `geweke` asks whether the z scores have the shape of a normal distribution, not whether they are small. As soon
as any z scores `zs` at all pass, there is for every bound `Z` an accepted chain that passes with the default arguments although in
every walker the mean of the first part exceeds that of the last half by more than `Z` standard errors. -/
theorem C119_violated {normaltest : List (Flt ℝ) → Flt ℝ} (hn : ShapeOnly normaltest) {zs : List ℝ} (hne : zs ≠ []) {threshold : ℝ}
    (hpass : Flt.lt (.fin threshold) (normaltest (zs.map .fin)) = true) (Z : ℝ) :
    ∃ (a : Args ℝ) (c : Chain ℝ) (x : List ℝ), a.samples.WF ∧ Chain.make a = .ok c ∧ c.walkers = zs.length ∧
      c.samples.index.length = zs.length * 40 ∧ c.dataColumns = ["x"] ∧ c.samples.get "x" = .ok x ∧
      geweke gewekeSpec normaltest [] (.one (.inl c)) (1 / 10) (1 / 2) threshold = .ok ⟨true, [(c.name, true)]⟩ ∧
      ∀ w ∈ gewekeWindows (1 / 10) (1 / 2) zs.length (zs.length * 40) [x], ∃ z, gewekeZ gewekeSpec w = .fin z ∧ Z < z := by
  obtain ⟨d, hd⟩ : ∃ d, ∀ z ∈ zs, Z < z + d := by
    clear hpass hne
    induction zs with
    | nil => exact ⟨0, by simp⟩
    | cons z zs ih =>
      obtain ⟨d, hd⟩ := ih
      refine ⟨max d (Z - z + 1), fun y hy => ?_⟩
      rcases List.mem_cons.1 hy with rfl | hy
      · have := le_max_right d (Z - y + 1)
        linarith
      · have := le_max_left d (Z - z + 1)
        have := hd y hy
        linarith
  set ys := zs.map (· + d) with hys
  have hl : ys.length = zs.length := by simp [hys]
  have hyne : ys ≠ [] := by simpa [hys] using hne
  have hlen : 0 < zs.length := List.length_pos_iff.2 hne
  set f : Frame ℝ := ⟨(List.range (zs.length * 40)).map fun i : Nat => Label.int (i : Int),
    [("x", driftColumn ys), ("weight", List.replicate (zs.length * 40) 1)]⟩ with hf
  have hfW : f.WF := by
    refine ⟨by simp [hf], fun e he => ?_⟩
    simp only [hf, List.mem_cons, List.not_mem_nil, or_false] at he
    rcases he with rfl | rfl
    · simp [hf, driftColumn_length, hl]
    · simp [hf]
  have hfne : f.index ≠ [] := by
    intro h
    have := congrArg List.length h
    simp only [hf, List.length_map, List.length_range, List.length_nil] at this
    omega
  obtain ⟨c, hc, hcs, hcw, hcp, hpow, hgrid, hwalk, hname, hcfg⟩ :=
    plain_chain_cfg (K := ℝ) false [] rfl
      (by change (0 : ℝ) ≤ 6827 / 10000 ∧ (6827 / 10000 : ℝ) ≤ 1; constructor <;> norm_num)
      (by change (1 : ℝ) ≤ 10; norm_num) rfl rfl (by intro h; cases h) f hfW hfne (w := List.replicate (zs.length * 40) 1)
      rfl (by intro v hv; rw [List.eq_of_mem_replicate hv]; norm_num) "drift" zs.length hlen
      (by simp [hf])
  have hdc : c.dataColumns = ["x"] := by
    simp only [Chain.dataColumns, hcs, hf, Frame.columns, hcw, hcp, List.map_cons, List.map_nil]
    decide
  have hget : c.samples.get "x" = .ok (driftColumn ys) := by rw [hcs]; rfl
  have hidx : c.samples.index.length = zs.length * 40 := by rw [hcs]; simp [hf]
  have hz := drift_windows ys hyne
  rw [hl] at hz
  refine ⟨_, c, driftColumn ys, toRaw_WF.2 hfW, hc, hwalk, hidx, hdc, hget, ?_, fun w hw => ?_⟩
  · have h1 : (zs.length * 40 % zs.length == 0) = true := by simp
    have h2 : decide (0 < zs.length) = true := decide_eq_true hlen
    have hone : gewekeOne gewekeSpec normaltest (1 / 10) (1 / 2) threshold c = .ok true := by
      simp only [gewekeOne, hdc, Frame.getMany, hget, hwalk, hidx, h1, h2, ensure, if_true, bind, Except.bind, pure, Except.pure, hz]
      rw [ShapeOnly_shift hn zs d, hpass]
    simp only [geweke, sanitiseChains, resolveChain, runDiagnostic, hone, bind, Except.bind, pure, Except.pure]
  · have : gewekeZ gewekeSpec w ∈ ys.map Flt.fin := by
      rw [← hz]
      exact List.mem_map_of_mem hw
    obtain ⟨y, hy, e⟩ := List.mem_map.1 this
    obtain ⟨z, hzm, rfl⟩ := List.mem_map.1 hy
    exact ⟨_, e.symm, hd z hzm⟩

/-! ### Examples -/

open Classical in
/-- A test of that kind. -/
noncomputable def Spec.shapeTest (zs : List (Flt ℝ)) : Flt ℝ :=
  if ∃ z ∈ zs, ∀ x, z ≠ .fin x then .nan
  else .fin (Real.exp (-(skewness (zs.map fun z => match z with | .fin x => x | _ => 0) ^ 2 +
    (kurtosis (zs.map fun z => match z with | .fin x => x | _ => 0) - 3) ^ 2) / 2))

theorem shapeTest_fin (zs : List ℝ) : shapeTest (zs.map .fin) = .fin (Real.exp (-(skewness zs ^ 2 + (kurtosis zs - 3) ^ 2) / 2)) := by
  have h : ¬∃ z ∈ zs.map Flt.fin, ∀ x : ℝ, z ≠ .fin x := by
    rintro ⟨z, hz, h⟩
    obtain ⟨x, -, rfl⟩ := List.mem_map.1 hz
    exact h x rfl
  unfold shapeTest
  rw [if_neg h, List.map_map]
  have : (List.map ((fun z : Flt ℝ => match z with | .fin x => x | _ => 0) ∘ Flt.fin) zs) = zs := by
    conv_rhs => rw [← List.map_id zs]
    rfl
  rw [this]

theorem sum_perm {zs zs' : List ℝ} (h : zs.Perm zs') (k : Nat) : centralMoment k zs = centralMoment k zs' := by
  unfold centralMoment
  rw [h.sum_eq, h.length_eq, (h.map _).sum_eq]

/-- The hypotheses on the test are met by a p-value computed from skewness and kurtosis; z scores of the shape `-1, 1, 0, 0, 0, 0` pass. -/
example : NanWins shapeTest ∧ Unordered shapeTest ∧ ShapeOnly shapeTest ∧
    Flt.lt (.fin (1 / 20)) (shapeTest (([-1, 1, 0, 0, 0, 0] : List ℝ).map .fin)) = true := by
  refine ⟨fun zs h => if_pos ⟨_, h, fun x h => by cases h⟩, fun zs zs' h => ?_,
    ⟨fun _ s k => .fin (Real.exp (-(s ^ 2 + (k - 3) ^ 2) / 2)), shapeTest_fin⟩, ?_⟩
  · unfold shapeTest
    have e : (∃ z ∈ zs, ∀ x, z ≠ .fin x) ↔ ∃ z ∈ zs', ∀ x : ℝ, z ≠ .fin x := by simp only [h.mem_iff]
    simp only [skewness, kurtosis, sum_perm (h.map _)]
    classical
    exact if_congr e rfl rfl
  · rw [shapeTest_fin]
    have h2 : centralMoment 2 [-1, 1, 0, 0, 0, 0] = 1 / 3 := by norm_num [centralMoment]
    have h3 : centralMoment 3 [-1, 1, 0, 0, 0, 0] = 0 := by norm_num [centralMoment]
    have h4 : centralMoment 4 [-1, 1, 0, 0, 0, 0] = 1 / 3 := by norm_num [centralMoment]
    have hs : skewness [-1, 1, 0, 0, 0, 0] = 0 := by rw [skewness, h3, zero_div]
    have hk : kurtosis [-1, 1, 0, 0, 0, 0] = 3 := by rw [kurtosis, h2, h4]; norm_num
    rw [hs, hk]
    norm_num [Flt.lt]

/-- Two chains of two walkers in different order meet the hypotheses of `C119_walkers`, and each those of `C119_short`. -/
example : ∃ (a a' : Args ℝ) (c c' : Chain ℝ) (x : List ℝ), a.samples.WF ∧ Chain.make a = .ok c ∧ a'.samples.WF ∧ Chain.make a' = .ok c' ∧
    c.walkers = 2 ∧ c.samples.index.length = 2 * 2 ∧ c'.walkers = 2 ∧ c'.samples.index.length = 2 * 2 ∧
    c'.dataColumns = c.dataColumns ∧ (∀ p x x', (p, x) ∈ c.samples.cols → (p, x') ∈ c'.samples.cols → ∀ k, steps x' 2 2 k =
      steps x 2 2 (Equiv.swap 0 1 k)) ∧ "x" ∈ c.dataColumns ∧ ("x", x) ∈ c.samples.cols ∧ (1 / 10 * (2 : Nat) : ℝ) < 3 := by
  have key : ∀ v : List ℝ, v.length = 4 → ∃ (a : Args ℝ) (c : Chain ℝ), a.samples.WF ∧ Chain.make a = .ok c ∧ c.walkers = 2 ∧
      c.samples = ⟨[.int 0, .int 1, .int 2, .int 3], [("x", v), ("weight", [1, 1, 1, 1])]⟩ ∧ c.dataColumns = ["x"] := by
    intro v hv
    set f : Frame ℝ := ⟨[.int 0, .int 1, .int 2, .int 3], [("x", v), ("weight", [1, 1, 1, 1])]⟩ with hf
    have hfW : f.WF := ⟨by simp [hf], by simp [hf, hv]⟩
    obtain ⟨c, hc, hcs, hcw, hcp, -, -, hwalk, -, -⟩ :=
      plain_chain_cfg (K := ℝ) false [] rfl
        (by change (0 : ℝ) ≤ 6827 / 10000 ∧ (6827 / 10000 : ℝ) ≤ 1; constructor <;> norm_num)
        (by change (1 : ℝ) ≤ 10; norm_num) rfl rfl (by intro h; cases h) f hfW (by simp [hf]) (w := [1, 1, 1, 1])
        rfl (by simp) "walk" 2 (by norm_num) (by simp [hf])
    refine ⟨_, c, toRaw_WF.2 hfW, hc, hwalk, hcs, ?_⟩
    simp only [Chain.dataColumns, hcs, hf, Frame.columns, hcw, hcp, List.map_cons, List.map_nil]
    decide
  obtain ⟨a, c, hw, hc, hwk, hcs, hd⟩ := key [1, 2, 3, 4] rfl
  obtain ⟨a', c', hw', hc', hwk', hcs', hd'⟩ := key [3, 4, 1, 2] rfl
  refine ⟨a, a', c, c', [1, 2, 3, 4], hw, hc, hw', hc', hwk, by rw [hcs]; rfl, hwk', by rw [hcs']; rfl, by rw [hd, hd'], ?_, by rw [hd]; simp,
    by rw [hcs]; simp, by norm_num⟩
  intro p x x' hx hx' k
  rw [hcs] at hx
  rw [hcs'] at hx'
  simp only [List.mem_cons, Prod.mk.injEq, List.not_mem_nil, or_false] at hx hx'
  rcases hx with ⟨rfl, rfl⟩ | ⟨rfl, rfl⟩ <;> rcases hx' with ⟨h, rfl⟩ | ⟨h, rfl⟩ <;>
    first
      | (exfalso; revert h; decide)
      | (funext i; fin_cases k <;> fin_cases i <;> simp [steps])

end CC
