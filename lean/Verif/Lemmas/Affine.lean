import Verif.Props.Extents
import Verif.Props.GridBins
import Verif.Props.EqualTailed
import Verif.Props.MaxSummary

/-! How the steps of the histogram pipeline react to a change of units. -/

set_option linter.unusedSectionVars false

namespace CC
open Spec

theorem map_bind {α β γ : Type} (x : Res α) (f : α → Res β) (g : β → γ) :
    Except.map g (x >>= f) = x >>= fun a => Except.map g (f a) := by
  cases x <;> rfl

theorem bind_map {α β γ : Type} (x : Res α) (g : α → β) (f : β → Res γ) :
    (Except.map g x) >>= f = x >>= fun a => f (g a) := by
  cases x <;> rfl

theorem bind_congr {α β : Type} {x : Res α} {f g : α → Res β} (h : ∀ a, x = .ok a → f a = g a) :
    x >>= f = x >>= g := by
  cases x with
  | error e => rfl
  | ok a => exact h a rfl

section
variable {K : Type} [Field K] [LinearOrder K] [IsStrictOrderedRing K]

/-- A change of units and origin. -/
def Spec.affine (a b : K) (x : K) : K := a * x + b

theorem affine_lt {a b : K} (ha : 0 < a) {x y : K} : affine a b x < affine a b y ↔ x < y := by
  unfold affine
  rw [add_lt_add_iff_right, mul_lt_mul_iff_right₀ ha]

theorem affine_le {a b : K} (ha : 0 < a) {x y : K} : affine a b x ≤ affine a b y ↔ x ≤ y := by
  unfold affine
  rw [add_le_add_iff_right, mul_le_mul_iff_right₀ ha]

theorem affine_inj {a b : K} (ha : 0 < a) {x y : K} : affine a b x = affine a b y ↔ x = y := by
  unfold affine
  rw [add_left_inj, mul_right_inj' ha.ne']

theorem affine_mono {a b : K} (ha : 0 < a) : Monotone (affine a b) := fun _ _ h => (affine_le ha).2 h

theorem linspace_affine (a b u v : K) (n : Nat) :
    linspace (affine a b u) (affine a b v) n = (linspace u v n).map (affine a b) := by
  unfold linspace
  rw [List.map_map]
  refine List.map_congr_left fun i _ => ?_
  simp only [Function.comp, affine]
  ring

theorem midpoints_affine (a b : K) (e : List K) :
    midpoints (e.map (affine a b)) = (midpoints e).map (affine a b) := by
  unfold midpoints
  rw [← List.map_tail, List.zipWith_map, List.map_zipWith]
  congr 1
  funext l r
  simp only [affine]
  ring

theorem foldl_map_mono {f : K → K} {op : K → K → K} (h : ∀ x y, f (op x y) = op (f x) (f y)) (x : K)
    (xs : List K) : (xs.map f).foldl op (f x) = f (xs.foldl op x) := by
  induction xs generalizing x with
  | nil => rfl
  | cons y ys ih => rw [List.map_cons, List.foldl_cons, List.foldl_cons, ← h, ih]

theorem autoEdges_affine {a b : K} (ha : 0 < a) (n : Nat) {data : List K}
    (hne : ∃ x ∈ data, ∃ y ∈ data, x < y) :
    autoEdges n (data.map (affine a b)) = (autoEdges n data).map (List.map (affine a b)) := by
  cases data with
  | nil => obtain ⟨x, hx, -⟩ := hne; cases hx
  | cons x xs =>
    obtain ⟨p, hp, q, hq, hpq⟩ := hne
    have h1 := (foldl_min_map_spec x xs).2 p hp
    have h2 := (foldl_max_map_spec x xs).2 q hq
    have hne : xs.foldl min x ≠ xs.foldl max x := ((h1.trans_lt hpq).trans_le h2).ne
    rw [List.map_cons]
    simp only [autoEdges]
    rw [foldl_map_mono (op := min) (fun x y => (affine_mono ha).map_min),
      foldl_map_mono (op := max) (fun x y => (affine_mono ha).map_max),
      if_neg hne, if_neg (fun h => hne ((affine_inj ha).1 h)), linspace_affine]
    rfl

theorem getD_map {f : K → K} {l : List K} {i : Nat} (h : i < l.length) :
    (l.map f).getD i 0 = f (l.getD i 0) := by
  rw [getD_eq (by simpa using h), getD_eq h, List.getElem_map]

theorem binMass_affine {a b : K} (ha : 0 < a) (edges data w : List K) {i : Nat} (hi : i + 1 < edges.length) :
    binMass (edges.map (affine a b)) (data.map (affine a b)) w i = binMass edges data w i := by
  unfold binMass
  rw [List.zipWith_map_left]
  congr 2
  funext x v
  have : inBin (edges.map (affine a b)) i (affine a b x) = inBin edges i x := by
    unfold inBin
    rw [getD_map (by omega), getD_map hi, List.length_map]
    simp only [affine_le ha, affine_lt ha]
  rw [this]

theorem zipWith_tail_affine {β : Type} (a b : K) (R : K → K → β) (edges : List K) :
    List.zipWith R (edges.map (affine a b)) (edges.map (affine a b)).tail =
      List.zipWith (fun x y => R (affine a b x) (affine a b y)) edges edges.tail := by
  rw [← List.map_tail, List.zipWith_map]

theorem histogram_affine {a b : K} (ha : 0 < a) (edges data w : List K) :
    histogram (edges.map (affine a b)) (data.map (affine a b)) w = histogram edges data w := by
  unfold histogram
  rw [zipWith_tail_affine]
  simp only [affine_le ha, List.length_map]
  congr 1
  funext _
  congr 1
  refine List.map_congr_left fun i hi => binMass_affine ha _ _ _ ?_
  have := List.mem_range.1 hi
  omega

theorem atIndex_map {α β : Type} (f : α → β) (l : List α) (i : Nat) :
    atIndex (l.map f) i = (atIndex l i).map f := by
  unfold atIndex
  rw [List.getElem?_map]
  cases l[i]? <;> rfl

theorem fromEnd_map {α β : Type} (f : α → β) (l : List α) (i : Nat) :
    fromEnd (l.map f) i = (fromEnd l i).map f := by
  unfold fromEnd
  rw [List.length_map, List.getElem?_map, List.getElem?_map]
  by_cases h1 : i = 0
  · rw [if_pos h1, if_pos h1]; cases l[0]? <;> rfl
  · rw [if_neg h1, if_neg h1]
    by_cases h2 : i ≤ l.length
    · rw [if_pos h2, if_pos h2]; cases l[l.length - i]? <;> rfl
    · rw [if_neg h2, if_neg h2]; rfl

theorem extentPick_affine (a b : K) (bc cdf icdf : List K) (t : K) (pad : Bool) :
    extentPick (bc.map (affine a b)) cdf icdf t pad =
      (extentPick bc cdf icdf t pad).map (Prod.map (affine a b) (affine a b)) := by
  unfold extentPick
  simp only [map_bind, atIndex_map, fromEnd_map, bind_map]
  refine bind_congr fun i1 _ => bind_congr fun i2 _ => bind_congr fun l _ => bind_congr fun u _ => ?_
  cases pad
  · rfl
  · simp only [if_true, pure, Except.pure, Except.map, Prod.map, affine]
    congr 2 <;> ring

theorem getExtents_affine {a b : K} (ha : 0 < a) {data : List K} (w : List K)
    (hne : ∃ x ∈ data, ∃ y ∈ data, x < y) (plot wide tiny pad : Bool) :
    getExtents (data.map (affine a b)) w plot wide tiny pad =
      (getExtents data w plot wide tiny pad).map (Prod.map (affine a b) (affine a b)) := by
  unfold getExtents
  simp only [autoEdges_affine ha 2000 hne, bind_map, histogram_affine ha, midpoints_affine,
    extentPick_affine, map_bind]

theorem linspaceInt_affine (a b u v : K) (n : Int) :
    linspaceInt (affine a b u) (affine a b v) n = (linspaceInt u v n).map (List.map (affine a b)) := by
  unfold linspaceInt
  by_cases h : n < 0
  · rw [if_pos h, if_pos h]; rfl
  · rw [if_neg h, if_neg h, linspace_affine]; rfl

theorem getSmoothedBins_affine {a b : K} (ha : 0 < a) {data : List K} (w : List K)
    (hne : ∃ x ∈ data, ∃ y ∈ data, x < y) (s n : Int) (plot pad : Bool) :
    getSmoothedBins s n (data.map (affine a b)) w plot pad =
      (getSmoothedBins s n data w plot pad).map (Prod.map (List.map (affine a b)) id) := by
  unfold getSmoothedBins
  rw [getExtents_affine ha w hne, bind_map, map_bind]
  refine bind_congr fun e _ => ?_
  obtain ⟨u, v⟩ := e
  by_cases h : s = 0
  · simp only [h, if_true, Prod.map, linspaceInt_affine, bind_map, map_bind]
    rfl
  · simp only [h, if_false, Prod.map, linspaceInt_affine, bind_map, map_bind]
    rfl

theorem sortUnique_affine {a b : K} (ha : 0 < a) (data : List K) :
    sortUnique (data.map (affine a b)) = (sortUnique data).map (affine a b) := by
  refine increasing_unique (sortUnique_increasing _) ?_ fun x => ?_
  · rw [List.pairwise_map]
    exact (sortUnique_increasing data).imp fun h => (affine_lt ha).2 h
  · rw [mem_sortUnique, List.mem_map, List.mem_map]
    simp only [mem_sortUnique]

theorem getGridBins_affine {a b : K} (ha : 0 < a) (data : List K) :
    getGridBins (data.map (affine a b)) = (getGridBins data).map (List.map (affine a b)) := by
  unfold getGridBins
  rw [sortUnique_affine ha]
  match sortUnique data with
  | [] => rfl
  | [x] => rfl
  | x :: y :: rest =>
    simp only [List.map_cons, Except.map, List.map_append, List.map_nil, List.map_map]
    have hl : ((affine a b y) :: rest.map (affine a b)).getLastD (affine a b y) =
        affine a b ((y :: rest).getLastD y) := by
      rw [← List.map_cons, List.getLastD_eq_getLast?, List.getLastD_eq_getLast?, List.getLast?_map]
      cases h : (y :: rest).getLast? with
      | none => simp at h
      | some z => rfl
    rw [hl]
    have hm : ∀ u, affine a b u - 1 / 2 * (affine a b y - affine a b x) =
        affine a b (u - 1 / 2 * (y - x)) := by
      intro u; simp only [affine]; ring
    simp only [hm]
    have hr : ∀ u, affine a b u + 1 / 2 * (affine a b y - affine a b x) =
        affine a b (u + 1 / 2 * (y - x)) := by
      intro u; simp only [affine]; ring
    rw [hr]
    congr 4
    refine List.map_congr_left fun u _ => ?_
    simp only [Function.comp, hm]

theorem histDensity_affine {a b : K} (ha : 0 < a) (edges data w : List K) :
    histDensity (edges.map (affine a b)) (data.map (affine a b)) w =
      (histDensity edges data w).map (List.map (1 / a * ·)) := by
  unfold histDensity
  rw [histogram_affine ha, map_bind]
  refine bind_congr fun n _ => ?_
  simp only [zipWith_tail_affine, ne_eq, affine_inj ha, map_bind]
  refine bind_congr fun _ _ => bind_congr fun _ _ => ?_
  simp only [pure, Except.pure, Except.map]
  congr 1
  rw [List.map_zipWith]
  have : List.zipWith (fun x y => affine a b y - affine a b x) edges edges.tail =
      (List.zipWith (fun l r => r - l) edges edges.tail).map (a * ·) := by
    rw [List.map_zipWith]
    congr 1
    funext x y
    simp only [affine]; ring
  rw [this, List.zipWith_map_right]
  congr 1
  funext m d
  have ha' := ha.ne'
  field_simp

/-! ### Interpolation -/

theorem polyline_affine {a b : K} (ha : 0 < a) (p q : K) : ∀ (xp fp : List K) (x : K), xp ≠ [] →
    fp.length = xp.length →
    polyline ((xp.map (affine a b)).zip (fp.map (affine p q))) (affine a b x) =
      affine p q (polyline (xp.zip fp) x)
  | [], _, _, h, _ => absurd rfl h
  | [u], fp, x, _, hl => by
    match fp, hl with
    | [v], _ => rfl
  | u :: u' :: xp, fp, x, _, hl => by
    match fp, hl with
    | v :: v' :: fp, hl =>
      have ih := polyline_affine (b := b) ha p q (u' :: xp) (v' :: fp) x (by simp) (by simpa using hl)
      simp only [List.map_cons, List.zip_cons_cons] at ih
      simp only [List.map_cons, List.zip_cons_cons, polyline, affine_lt ha]
      split
      · have e1 : affine a b u' - affine a b u = a * (u' - u) := by simp only [affine]; ring
        have e2 : affine a b x - affine a b u = a * (x - u) := by simp only [affine]; ring
        have e3 : affine p q v' - affine p q v = p * (v' - v) := by simp only [affine]; ring
        have ha' := ha.ne'
        rw [e1, e2, e3]
        have : p * (v' - v) / (a * (u' - u)) * (a * (x - u)) = p * ((v' - v) / (u' - u) * (x - u)) := by
          rw [mul_div_mul_comm, mul_comm a (x - u)]
          field_simp
        rw [this]
        simp only [affine]; ring
      · exact ih

theorem interp1d_affine {a b : K} (ha : 0 < a) (p q : K) (xp fp : List K) (x : K)
    (hl : fp.length = xp.length) :
    interp1d (xp.map (affine a b)) (fp.map (affine p q)) (affine a b x) =
      (interp1d xp fp x).map (affine p q) := by
  unfold interp1d
  rw [List.head?_map, List.getLast?_map]
  cases h1 : xp.head? with
  | none => rfl
  | some u =>
    cases h2 : xp.getLast? with
    | none => rfl
    | some v =>
      simp only [Option.map_some, affine_lt ha]
      by_cases h3 : x < u
      · rw [if_pos h3, if_pos h3]; rfl
      · rw [if_neg h3, if_neg h3]
        by_cases h4 : v < x
        · rw [if_pos h4, if_pos h4]; rfl
        · rw [if_neg h4, if_neg h4, polyline_affine ha p q xp fp x _ hl]
          · rfl
          · rintro rfl; simp at h1

theorem mapM_map_res {α β γ δ : Type} (F : α → β) (G : γ → δ) (f : β → Res δ) (g : α → Res γ)
    (h : ∀ x, f (F x) = (g x).map G) (l : List α) :
    (l.map F).mapM f = (l.mapM g).map (List.map G) := by
  induction l with
  | nil => rfl
  | cons x l ih =>
    rw [List.map_cons, List.mapM_cons, List.mapM_cons, h, bind_map, map_bind]
    refine bind_congr fun y _ => ?_
    rw [ih, bind_map, map_bind]
    rfl

/-! ### Scaling of the values -/

theorem cumsum_scale (k : K) (l : List K) : cumsum (l.map (k * ·)) = (cumsum l).map (k * ·) := by
  unfold cumsum
  rw [List.map_map, List.length_map]
  refine List.map_congr_left fun i _ => ?_
  simp only [Function.comp]
  rw [← List.map_take, List.sum_map_mul_left]
  simp

theorem npMax_scale {k : K} (hk : 0 < k) (l : List K) : npMax (l.map (k * ·)) = (npMax l).map (k * ·) := by
  by_cases h : l = []
  · subst h; rfl
  · obtain ⟨M, h1, h2, h3⟩ := npMax_spec h
    obtain ⟨M', h1', h2', h3'⟩ := npMax_spec (p := l.map (k * ·)) (by simpa using h)
    rw [h1, h1']
    obtain ⟨z, hz, rfl⟩ := List.mem_map.1 h2'
    have e1 := h3' (k * M) (List.mem_map.2 ⟨M, h2, rfl⟩)
    have e2 := h3 z hz
    have : z = M := le_antisymm e2 ((mul_le_mul_iff_right₀ hk).1 e1)
    rw [this]; rfl

theorem argmax_scale {k : K} (hk : 0 < k) (l : List K) : argmax (l.map (k * ·)) = argmax l := by
  induction l with
  | nil => rfl
  | cons x xs ih =>
    rw [List.map_cons]
    simp only [argmax, ih]
    cases h : argmax xs with
    | none => rfl
    | some j =>
      simp only [List.getElem?_map]
      cases xs[j]? with
      | none => rfl
      | some y => simp only [Option.map_some, mul_lt_mul_iff_right₀ hk]

theorem firstWhere_map {α β : Type} (f : α → β) (p : β → Bool) (l : List α) :
    firstWhere p (l.map f) = firstWhere (fun x => p (f x)) l := by
  unfold firstWhere
  rw [List.findIdx?_map]
  rfl

theorem maxLoop_scale {k : K} (hk : 0 < k) (ys cs : List K) (start : Nat) (area : K) (fuel : Nat) :
    ∀ maxv minv : K, maxLoop (ys.map (k * ·)) cs start area fuel (k * maxv) (k * minv) =
      maxLoop ys cs start area fuel maxv minv := by
  induction fuel with
  | zero => intro _ _; rfl
  | succ n ih =>
    intro maxv minv
    have hm : (k * maxv + k * minv) / 2 = k * ((maxv + minv) / 2) := by ring
    simp only [maxLoop, hm, ih, ← List.map_take, ← List.map_drop, ← List.map_reverse, firstWhere_map,
      mul_lt_mul_iff_right₀ hk]

end

theorem reflectFilter_scale {K : Type} [Field K] (k : K) (r : Nat) (ker : Int → K) (h : List K) :
    reflectFilter r ker (h.map (k * ·)) = (reflectFilter r ker h).map (k * ·) := by
  unfold reflectFilter
  rw [List.map_map, List.length_map]
  refine List.map_congr_left fun i _ => ?_
  simp only [Function.comp]
  rw [← List.sum_map_mul_left]
  congr 1
  refine List.map_congr_left fun j _ => ?_
  have : ∀ n, (h.map (k * ·)).getD n 0 = k * h.getD n 0 := by
    intro n
    simp only [List.getD_eq_getElem?_getD, List.getElem?_map]
    cases h[n]? <;> simp
  rw [this]
  ring

theorem smoothHist_scale (k : ℝ) (s : Int) (h : List ℝ) :
    smoothHist s (h.map (k * ·)) = (smoothHist s h).map (List.map (k * ·)) := by
  unfold smoothHist
  by_cases h1 : s = 0
  · rw [if_pos h1, if_pos h1]; rfl
  · rw [if_neg h1, if_neg h1]
    by_cases h2 : 0 < s
    · rw [if_pos h2, if_pos h2, gaussianFilter, reflectFilter_scale]; rfl
    · rw [if_neg h2, if_neg h2]; rfl

theorem powAll_scale {k : ℝ} (hk : 0 < k) {h : List ℝ} (hh : ∀ v ∈ h, 0 ≤ v) (p : ℝ) :
    powAll (h.map (k * ·)) p = (powAll h p).map (List.map (k ^ p * ·)) := by
  unfold powAll
  rw [map_bind]
  have : ((h.map (k * ·)).all fun v => decide (v ≠ 0)) = h.all fun v => decide (v ≠ 0) := by
    rw [List.all_map]
    congr 1
    funext v
    simp [hk.ne']
  rw [this]
  refine bind_congr fun _ _ => ?_
  simp only [pure, Except.pure, Except.map, List.map_map]
  congr 1
  refine List.map_congr_left fun v hv => ?_
  simp only [Function.comp]
  rw [Real.mul_rpow hk.le (hh v hv)]

theorem normCumsum_scale {k : ℝ} (hk : 0 < k) (ys : List ℝ) :
    normCumsum (ys.map (k * ·)) = normCumsum ys := by
  unfold normCumsum
  rw [cumsum_scale, arrMax, npMax_scale hk, bind_map]
  refine bind_congr fun m _ => ?_
  simp only [ne_eq, mul_eq_zero, hk.ne', false_or, List.map_map]
  refine bind_congr fun _ _ => ?_
  simp only [pure, Except.pure]
  congr 1
  refine List.map_congr_left fun v _ => ?_
  simp only [Function.comp]
  exact mul_div_mul_left _ _ hk.ne'

end CC
