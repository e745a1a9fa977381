import Verif.Model.Degenerate
import Verif.Props.MaxPosterior
import Verif.Lemmas.MaxLoop
import Verif.Lemmas.Marginal
import Verif.Lemmas.Affine
import Verif.Props.Ranges

/-! # Lemmas: where the exact model of marginals and of the maximum statistic succeeds, the model with NaN agrees -/

namespace CC

theorem zipWith_map_fin {α : Type} (f : ℝ → α → ℝ) (g : ℝ → α → Flt ℝ) (l : List ℝ) (m : List α)
    (h : ∀ x ∈ l.zip m, g x.1 x.2 = .fin (f x.1 x.2)) : List.zipWith g l m = (List.zipWith f l m).map .fin := by
  induction l generalizing m with
  | nil => simp
  | cons a l ih =>
    cases m with
    | nil => simp
    | cons b m =>
      simp only [List.zipWith_cons_cons, List.map_cons, List.cons.injEq]
      exact ⟨h (a, b) (by simp), ih m fun x hx => h x (by simp [hx])⟩

theorem fltHistDensity_exact {edges data w h : List ℝ} (hh : histDensity edges data w = .ok h) :
    fltHistDensity edges data w = .ok (h.map .fin) := by
  simp only [histDensity] at hh
  rw [bind_ok_iff] at hh
  obtain ⟨n, hn, hh⟩ := hh
  rw [bind_ok_iff] at hh
  obtain ⟨u, h1, hh⟩ := hh
  rw [bind_ok_iff] at hh
  obtain ⟨u', h2, hh⟩ := hh
  rw [ensure_ok_iff] at h1 h2
  rw [decide_eq_true_eq] at h2
  cases hh
  simp only [fltHistDensity, hn, bind, Except.bind, pure, Except.pure]
  congr 1
  refine zipWith_map_fin _ _ _ _ fun x hx => ?_
  have hx2 : x.2 ≠ 0 := by
    have hm := (List.of_mem_zip hx).2
    obtain ⟨i, hi, hie⟩ := List.getElem_of_mem hm
    rw [List.getElem_zipWith] at hie
    rw [List.all_eq_true] at h1
    have := h1 _ (List.getElem_mem (l := List.zipWith (fun l r => decide (l ≠ r)) edges edges.tail) (n := i) (by simpa using hi))
    rw [List.getElem_zipWith] at this
    simp only [id_eq, decide_eq_true_eq] at this
    rw [← hie]
    exact sub_ne_zero.2 (Ne.symm this)
  simp only [Flt.div, hx2, h2, if_false]

theorem fltPow_exact {h h' : List ℝ} {p : ℝ} (hp : powAll h p = .ok h') : (h.map .fin).map (fltPow p) = h'.map .fin := by
  simp only [powAll] at hp
  rw [bind_ok_iff] at hp
  obtain ⟨u, h1, hp⟩ := hp
  rw [ensure_ok_iff] at h1
  cases hp
  rw [List.map_map, List.map_map]
  refine List.map_congr_left fun x hx => ?_
  simp only [Function.comp, fltPow]
  by_cases h0 : p = 0
  · rw [if_pos h0, h0, Real.rpow_zero]
  · rw [if_neg h0, if_neg]
    rintro ⟨rfl, hlt⟩
    simp only [Bool.or_eq_true, decide_eq_true_eq, List.all_eq_true] at h1
    rcases h1 with h1 | h1
    · exact absurd hlt (not_lt.2 h1)
    · exact h1 0 hx rfl

theorem fltSum_map_fin (l : List ℝ) : fltSum (l.map .fin) = .fin l.sum := by
  induction l with
  | nil => rfl
  | cons a l ih =>
    simp only [fltSum, List.map_cons, List.foldr_cons, List.sum_cons] at ih ⊢
    rw [ih]; rfl

theorem getD_map_fin (l : List ℝ) (i : Nat) : (l.map Flt.fin).getD i (.fin 0) = .fin (l.getD i 0) := by
  simp only [List.getD_eq_getElem?_getD, List.getElem?_map]
  cases l[i]? <;> rfl

theorem fltFilter_exact (s : Nat) (h : List ℝ) : fltFilter s (h.map .fin) = (gaussianFilter s h).map .fin := by
  simp only [fltFilter, gaussianFilter, reflectFilter, List.length_map, List.map_map]
  refine List.map_congr_left fun i _ => ?_
  simp only [Function.comp]
  rw [← fltSum_map_fin, List.map_map]
  congr 1
  refine List.map_congr_left fun j _ => ?_
  rw [getD_map_fin]
  rfl

theorem fltSmooth_exact {s : Int} {h h' : List ℝ} (hs : smoothHist s h = .ok h') :
    fltSmooth s (h.map .fin) = .ok (h'.map .fin) := by
  unfold smoothHist at hs
  unfold fltSmooth
  split_ifs at hs ⊢ with h1 h2
  · cases hs; rfl
  · cases hs; rw [fltFilter_exact]

theorem fltPolyline_exact (p : List (ℝ × ℝ)) (x : ℝ) (h : ∀ q, p.head? = some q → q.1 ≤ x) :
    fltPolyline (p.map fun q => (q.1, .fin q.2)) x = .fin (polyline p x) := by
  induction p with
  | nil => rfl
  | cons a p ih =>
    cases p with
    | nil => rfl
    | cons b p =>
      simp only [List.map_cons, fltPolyline, polyline] at ih ⊢
      have ha := h a rfl
      by_cases hx : x < b.1
      · have : b.1 - a.1 ≠ 0 := by intro hc; linarith
        rw [if_pos hx, if_pos hx]
        simp only [Flt.sub, Flt.neg, Flt.add, Flt.div, this, if_false, Flt.mul]
        ring_nf
      · rw [if_neg hx, if_neg hx]
        exact ih fun q hq => by cases hq; exact not_lt.1 hx

theorem fltInterp1d_exact {xp fp : List ℝ} {x y : ℝ} (h : interp1d xp fp x = .ok y) :
    fltInterp1d xp (fp.map .fin) x = .ok (.fin y) := by
  unfold interp1d at h
  unfold fltInterp1d
  cases hx : xp.head? with
  | none => simp only [hx] at h; cases h
  | some a =>
    cases hy : xp.getLast? with
    | none => simp only [hx, hy] at h; cases h
    | some b =>
      simp only [hx, hy] at h ⊢
      split_ifs at h ⊢ with h1 h2
      cases h
      rw [← fltPolyline_exact _ _ (fun q hq => ?_)]
      · congr 2
        rw [List.zip_map_right]
        rfl
      · cases xp with
        | nil => cases hx
        | cons c xp =>
          cases hx
          cases fp with
          | nil => cases hq
          | cons d fp => cases hq; exact not_lt.1 h1

/-- The marginal of the exact model is the marginal with NaN. -/
theorem fltMarginal_exact {kde : KdeFn} {c : Chain ℝ} {col : String} {pad : Bool} {m : Marginal ℝ}
    (hk : c.cfg .kde = (0 : ℝ)) (h : smoothedHistogram kde c col pad none = .ok m) :
    fltMarginal c col pad = .ok (m.xs, m.ys.map .fin) := by
  simp only [smoothedHistogram] at h
  rw [bind_ok_iff] at h
  obtain ⟨data, h1, h⟩ := h
  rw [bind_ok_iff] at h
  obtain ⟨w, h2, h⟩ := h
  rw [bind_ok_iff] at h
  obtain ⟨bins, h3, h⟩ := h
  rw [bind_ok_iff] at h
  obtain ⟨hist, h4, h⟩ := h
  rw [bind_ok_iff] at h
  obtain ⟨hist', h5, h⟩ := h
  rw [bind_ok_iff] at h
  obtain ⟨ab, h6, h⟩ := h
  rw [bind_ok_iff] at h
  obtain ⟨u, -, h⟩ := h
  rw [bind_ok_iff] at h
  obtain ⟨ys, h8, h⟩ := h
  rw [bind_ok_iff] at h
  obtain ⟨cs, -, h⟩ := h
  cases h
  simp only [marginalYs] at h8
  rw [bind_ok_iff] at h8
  obtain ⟨hs, h9, h8⟩ := h8
  simp only [Option.getD_none, hk, ne_eq, not_true_eq_false, decide_false, Bool.false_eq_true, if_false] at h8
  have h10 : (linspace ab.1 ab.2 gridSize).mapM (fltInterp1d (midpoints bins) (hs.map .fin)) = .ok (ys.map .fin) := by
    rw [mapM_ok_iff] at h8 ⊢
    rw [List.forall₂_map_right_iff]
    exact h8.imp fun x y hxy => fltInterp1d_exact hxy
  simp only [fltMarginal, h1, h2, h3, fltHistDensity_exact h4, fltPow_exact h5, fltSmooth_exact h9, h6, bind, Except.bind, h10]
  rfl

theorem fltCumsum_exact (l : List ℝ) : fltCumsum (l.map .fin) = (cumsum l).map .fin := by
  simp only [fltCumsum, cumsum, List.length_map, List.map_map]
  refine List.map_congr_left fun i _ => ?_
  simp only [Function.comp, ← List.map_take, fltSum_map_fin]

theorem fltMax_fold (x : ℝ) (l : List ℝ) : ∃ m, (l.map Flt.fin).foldl fltMax (.fin x) = .fin m ∧ m ∈ x :: l ∧ ∀ y ∈ x :: l, y ≤ m := by
  induction l generalizing x with
  | nil => exact ⟨x, rfl, by simp, by simp⟩
  | cons a l ih =>
    have h : fltMax (.fin x) (.fin a) = .fin (max x a) := by
      simp only [fltMax, reduceCtorEq, or_self, if_false, Flt.lt, decide_eq_true_eq]
      by_cases hx : x < a
      · rw [if_pos hx, max_eq_right hx.le]
      · rw [if_neg hx, max_eq_left (not_lt.1 hx)]
    obtain ⟨m, h1, h2, h3⟩ := ih (max x a)
    refine ⟨m, by simpa only [List.map_cons, List.foldl_cons, h] using h1, ?_, ?_⟩
    · rcases List.mem_cons.1 h2 with h2 | h2
      · rcases max_choice x a with h4 | h4 <;> rw [h2, h4] <;> simp
      · simp [h2]
    · intro y hy
      have h4 := h3 (max x a) (by simp)
      rcases List.mem_cons.1 hy with rfl | hy
      · exact (le_max_left _ _).trans h4
      · rcases List.mem_cons.1 hy with rfl | hy
        · exact (le_max_right _ _).trans h4
        · exact h3 y (by simp [hy])

theorem fltArrMax_exact {l : List ℝ} {v : ℝ} (h : arrMax l = .ok v) : fltArrMax (l.map .fin) = .ok (.fin v) := by
  obtain ⟨h1, h2⟩ := arrMax_ok_iff.1 h
  cases l with
  | nil => cases h1
  | cons a l =>
    obtain ⟨m, h3, h4, h5⟩ := fltMax_fold a l
    rw [List.map_cons, fltArrMax, h3, le_antisymm (h2 m h4) (h5 v h1)]

theorem fltArgmax_exact {l : List ℝ} {i : Nat} (h : arrArgmax l = .ok i) : fltArgmax (l.map .fin) = .ok i := by
  have ha : argmax l = some i := by
    unfold arrArgmax at h
    cases hx : argmax l with
    | none => rw [hx] at h; cases h
    | some j => rw [hx] at h; cases h; rfl
  obtain ⟨hi, h1, h2⟩ := argmax_spec l i ha
  have hn : (l.map Flt.fin).findIdx? (fun v => decide (v = .nan)) = none := by
    rw [List.findIdx?_eq_none_iff]
    intro v hv
    obtain ⟨x, -, rfl⟩ := List.mem_map.1 hv
    simp
  simp only [fltArgmax, hn]
  rw [firstWhere_ok_iff]
  refine ⟨by simpa using hi, ?_, fun j hj => ?_⟩
  · simp only [List.getElem_map, List.all_map, List.all_eq_true, Function.comp, Flt.lt]
    intro x hx
    simpa using h1 x hx
  · simp only [List.getElem_map, List.all_map, Flt.lt]
    rw [List.all_eq_false]
    exact ⟨l[i], List.getElem_mem hi, by simpa using h2 j hj⟩

theorem atIndex_map_ok {α β : Type} (f : α → β) {l : List α} {i : Nat} {x : α} (h : atIndex l i = .ok x) :
    atIndex (l.map f) i = .ok (f x) := by
  unfold atIndex at h ⊢
  rw [List.getElem?_map]
  cases hx : l[i]? with
  | none => rw [hx] at h; cases h
  | some y => rw [hx] at h; cases h; rfl

theorem fltLinspace_exact (a b : ℝ) {n : Nat} (hn : 2 ≤ n) : fltLinspace (.fin a) (.fin b) n = (linspace a b n).map .fin := by
  have h1 : (n : ℝ) - 1 ≠ 0 := by
    have : (2 : ℝ) ≤ n := by exact_mod_cast hn
    intro h; linarith
  obtain ⟨k, rfl⟩ : ∃ k, n = k + 1 := ⟨n - 1, by omega⟩
  simp only [fltLinspace, linspace, Nat.add_sub_cancel, List.range_succ, List.map_append, List.map_cons, List.map_nil,
    List.map_map, Nat.add_one_ne_zero, if_false]
  congr 1
  · refine List.map_congr_left fun i _ => ?_
    simp only [Function.comp, Flt.sub, Flt.neg, Flt.add, Flt.div, Flt.mul, sub_eq_add_neg]
    rw [if_neg (by rwa [sub_eq_add_neg] at h1)]
  · have h2 : ((k : ℝ) + 1) - 1 ≠ 0 := by push_cast at h1; exact h1
    have h3 : (k : ℝ) ≠ 0 := by simpa using h2
    simp only [List.cons.injEq, Flt.fin.injEq, and_true]
    push_cast
    rw [add_sub_cancel_right]
    field_simp
    ring

theorem fltMaxLoop_exact (ys cs : List ℝ) (start : Nat) (area : ℝ) (fuel : Nat) (maxv minv : ℝ) {r : Option (Nat × Nat)}
    (h : maxLoop ys cs start area fuel maxv minv = .ok r) :
    fltMaxLoop (ys.map .fin) (cs.map .fin) start area fuel (.fin maxv) (.fin minv) = .ok r := by
  induction fuel generalizing maxv minv with
  | zero => exact h
  | succ fuel ih =>
    have hmid : ((Flt.fin maxv).add (.fin minv)).div (.fin 2) = .fin ((maxv + minv) / 2) := by
      simp [Flt.add, Flt.div]
    rw [maxLoop] at h
    rw [bind_ok_iff] at h
    obtain ⟨r1, h1, h⟩ := h
    rw [bind_ok_iff] at h
    obtain ⟨r2, h2, h⟩ := h
    rw [bind_ok_iff] at h
    obtain ⟨c2, h3, h⟩ := h
    rw [bind_ok_iff] at h
    obtain ⟨c1, h4, h⟩ := h
    have g1 : firstWhere (fun y => y.lt (.fin ((maxv + minv) / 2))) ((ys.map Flt.fin).take start).reverse = .ok r1 := by
      rw [← List.map_take, ← List.map_reverse, firstWhere_map]; exact h1
    have g2 : firstWhere (fun y => y.lt (.fin ((maxv + minv) / 2))) ((ys.map Flt.fin).drop start) = .ok r2 := by
      rw [← List.map_drop, firstWhere_map]; exact h2
    have hs : (Flt.fin c2).sub (.fin c1) = .fin (c2 - c1) := by simp [Flt.sub, Flt.neg, Flt.add, sub_eq_add_neg]
    have hs2 : (Flt.fin (c2 - c1)).sub (.fin area) = .fin (c2 - c1 - area) := by
      simp [Flt.sub, Flt.neg, Flt.add, sub_eq_add_neg]
    rw [fltMaxLoop]
    simp only [hmid, g1, g2, atIndex_map_ok Flt.fin h3, atIndex_map_ok Flt.fin h4, bind, Except.bind, hs, hs2]
    simp only [fltAbs, Flt.lt, decide_eq_true_eq]
    split_ifs at h ⊢ with a1 a2 a3
    · exact h
    · exact ih _ _ h
    · exact ih _ _ h
    · exact ih _ _ h

theorem endpoints_map_ok {α β : Type} (f : α → β) {l : List α} {e : α × α} (h : endpoints l = .ok e) :
    endpoints (l.map f) = .ok (f e.1, f e.2) := by
  unfold endpoints at h ⊢
  rw [List.head?_map, List.getLast?_map]
  cases h1 : l.head? <;> cases h2 : l.getLast? <;> rw [h1, h2] at h <;> cases h
  rfl

theorem fltSummaryMax_exact {m : Marginal ℝ} {area : ℝ} {b : Bound ℝ} (h : summaryMax m area = .ok b) :
    fltSummaryMax m.xs (m.ys.map .fin) area = .ok b := by
  simp only [summaryMax] at h
  rw [bind_ok_iff] at h
  obtain ⟨p, h1, h⟩ := h
  rw [bind_ok_iff] at h
  obtain ⟨total, h2, h⟩ := h
  rw [bind_ok_iff] at h
  obtain ⟨u, h3, h⟩ := h
  rw [bind_ok_iff] at h
  obtain ⟨start, h4, h⟩ := h
  rw [bind_ok_iff] at h
  obtain ⟨top, h5, h⟩ := h
  rw [bind_ok_iff] at h
  obtain ⟨xc, h6, h⟩ := h
  rw [bind_ok_iff] at h
  obtain ⟨r, h7, h⟩ := h
  rw [ensure_ok_iff, decide_eq_true_eq] at h3
  simp only [padded] at h1
  rw [bind_ok_iff] at h1
  obtain ⟨xe, e1, h1⟩ := h1
  rw [bind_ok_iff] at h1
  obtain ⟨ye, e2, h1⟩ := h1
  cases h1
  have hp : 2 ≤ padSize := by unfold padSize; norm_num
  have hys : fltLinspace (.fin 0) (.fin ye.1) padSize ++ m.ys.map .fin ++ fltLinspace (.fin ye.2) (.fin 0) padSize =
      (linspace 0 ye.1 padSize ++ m.ys ++ linspace ye.2 0 padSize).map .fin := by
    rw [fltLinspace_exact _ _ hp, fltLinspace_exact _ _ hp, List.map_append, List.map_append]
  have hcs : ((cumsum (linspace 0 ye.1 padSize ++ m.ys ++ linspace ye.2 0 padSize)).map Flt.fin).map
      (fun v => v.div (.fin total)) =
      ((cumsum (linspace 0 ye.1 padSize ++ m.ys ++ linspace ye.2 0 padSize)).map (· / total)).map .fin := by
    rw [List.map_map, List.map_map]
    refine List.map_congr_left fun x _ => ?_
    simp [Flt.div, h3]
  simp only [fltSummaryMax, e1, endpoints_map_ok Flt.fin e2, hys, fltCumsum_exact, fltArrMax_exact h2, hcs, fltArgmax_exact h4,
    atIndex_map_ok Flt.fin h5, h6, fltMaxLoop_exact _ _ _ _ _ _ _ h7, bind, Except.bind]
  cases r with
  | none => exact h
  | some i => exact h

/-- Whenever the exact model yields a summary with the statistic `max` and without KDE, the model with NaN yields the same. -/
theorem fltParameterSummaryMax_exact {kde : KdeFn} {c : Chain ℝ} {col : String} {b : Bound ℝ}
    (hk : c.cfg .kde = (0 : ℝ)) (hs : c.cfg .statistics = some Stat.max) (h : parameterSummary kde c col = .ok b) :
    fltParameterSummaryMax c col = .ok b := by
  simp only [parameterSummary, hs] at h
  rw [bind_ok_iff] at h
  obtain ⟨m, h1, h⟩ := h
  simp only [fltParameterSummaryMax, fltMarginal_exact hk h1, bind, Except.bind]
  exact fltSummaryMax_exact h

end CC
