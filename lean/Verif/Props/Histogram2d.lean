import Verif.Lemmas.Histogram2d
import Verif.Lemmas.Divide
import Verif.Lemmas.Demo
import Verif.Props.Bandwidth
import Verif.Props.Marginal
import Mathlib.Data.Int.Interval

/-! # C75, C76: two-dimensional histograms -/

namespace CC

/-- A value lies in cell `i` of the given edges: cells hold their lower edge, the last one also its upper edge. -/
def Spec.InCell (e : List ℝ) (i : Nat) (x : ℝ) : Prop :=
  e.getD i 0 ≤ x ∧ (x < e.getD (i + 1) 0 ∨ (i + 2 = e.length ∧ x = e.getD (i + 1) 0))

open Classical in
/-- The weight of the samples that satisfy a condition on both coordinates. -/
noncomputable def Spec.weightOf (x y w : List ℝ) (P : ℝ → ℝ → Prop) : ℝ :=
  ∑ k ∈ Finset.range x.length, if P (x.getD k 0) (y.getD k 0) then w.getD k 0 else 0

/-- Position `k` of an array of length `n` is what is found at position `i` of the array continued by its mirror images. -/
def Spec.IsMirror (n : Nat) (i : Int) (k : Nat) : Prop :=
  k < n ∧ ∃ z : Int, i = 2 * n * z + k ∨ i = 2 * n * z + (2 * n - 1 - k)

/-- The weight at distance `d` of a Gaussian of width `s`, cut off at four widths. -/
noncomputable def Spec.gaussWeight (s d : Int) : ℝ :=
  Real.exp (-(d : ℝ) ^ 2 / (2 * (s : ℝ) ^ 2)) / ∑ e ∈ Finset.Icc (-(4 * s)) (4 * s), Real.exp (-(e : ℝ) ^ 2 / (2 * (s : ℝ) ^ 2))

open Spec

theorem inBin_iff (e : List ℝ) (i : Nat) (x : ℝ) : inBin e i x = true ↔ InCell e i x := by
  simp only [inBin, InCell, Bool.and_eq_true, decide_eq_true_eq, Bool.or_eq_true]
  refine and_congr_right fun _ => ?_
  constructor
  · rintro (h | ⟨h1, h2⟩)
    · exact Or.inl h
    · rcases h2.lt_or_eq with h | h
      · exact Or.inl h
      · exact Or.inr ⟨h1, h⟩
  · rintro (h | ⟨h1, h2⟩)
    · exact Or.inl h
    · exact Or.inr ⟨h1, h2.le⟩

theorem cellMass_eq {ex ey x y w : List ℝ} (hy : y.length = x.length) (hw : w.length = x.length) (i j : Nat) :
    cellMass ex ey x y w i j = weightOf x y w fun a b => InCell ex i a ∧ InCell ey j b := by
  classical
  unfold cellMass weightOf
  have : (x.zip (y.zip w)).map (fun p => if inBin ex i p.1 && inBin ey j p.2.1 then p.2.2 else 0) =
      (List.range x.length).map fun k =>
        if InCell ex i (x.getD k 0) ∧ InCell ey j (y.getD k 0) then w.getD k 0 else 0 := by
    apply List.ext_getElem
    · simp [hy, hw]
    · intro k h1 h2
      have hk : k < x.length := by simpa using h2
      have e1 : x.getD k 0 = x[k] := by rw [List.getD_eq_getElem?_getD, List.getElem?_eq_getElem hk, Option.getD_some]
      have e2 : y.getD k 0 = y[k]'(hy ▸ hk) := by
        rw [List.getD_eq_getElem?_getD, List.getElem?_eq_getElem (hy ▸ hk), Option.getD_some]
      have e3 : w.getD k 0 = w[k]'(hw ▸ hk) := by
        rw [List.getD_eq_getElem?_getD, List.getElem?_eq_getElem (hw ▸ hk), Option.getD_some]
      simp only [List.getElem_map, List.getElem_zip, List.getElem_range, e1, e2, e3, Bool.and_eq_true, inBin_iff]
  rw [this, list_sum_range]
  exact Finset.sum_congr rfl fun k _ => by congr

theorem isMirror_unique {n : Nat} {i : Int} {k k' : Nat} (h : IsMirror n i k) (h' : IsMirror n i k') : k = k' := by
  obtain ⟨h1, z, h2⟩ := h
  obtain ⟨h3, z', h4⟩ := h'
  have hn : (0 : Int) < 2 * n := by omega
  have key : ∀ (r : Int), 0 ≤ r → r < 2 * n → ∀ z, i = 2 * n * z + r → i % (2 * n) = r := by
    intro r hr1 hr2 z hz
    rw [hz, add_comm, Int.add_mul_emod_self_left, Int.emod_eq_of_lt hr1 hr2]
  have e1 : i % (2 * n) = k ∨ i % (2 * n) = 2 * n - 1 - k := by
    rcases h2 with h2 | h2
    · exact Or.inl (key _ (by omega) (by omega) z h2)
    · exact Or.inr (key _ (by omega) (by omega) z h2)
  have e2 : i % (2 * n) = k' ∨ i % (2 * n) = 2 * n - 1 - k' := by
    rcases h4 with h4 | h4
    · exact Or.inl (key _ (by omega) (by omega) z' h4)
    · exact Or.inr (key _ (by omega) (by omega) z' h4)
  omega

theorem reflectIndex_isMirror {n : Nat} (hn : 0 < n) (i : Int) : IsMirror n i (reflectIndex n i) := by
  have h1 : 0 ≤ i % (2 * n) := Int.emod_nonneg _ (by omega)
  have h2 : i % (2 * n) < 2 * n := Int.emod_lt_of_pos _ (by omega)
  refine ⟨reflectIndex_lt hn i, i / (2 * n), ?_⟩
  have h3 := Int.mul_ediv_add_emod i (2 * n)
  unfold reflectIndex
  simp only
  split_ifs with h
  · left; omega
  · right; omega

/-- A sum over the offsets of the filter. -/
theorem sum_offsets {M : Type} [AddCommMonoid M] (r : Nat) (f : Int → M) :
    ∑ a ∈ Finset.range (2 * r + 1), f ((a : Int) - r) = ∑ d ∈ Finset.Icc (-(r : Int)) r, f d := by
  refine Finset.sum_nbij' (fun a => (a : Int) - r) (fun d => (d + r).toNat) ?_ ?_ ?_ ?_ ?_
  · intro a ha; simp only [Finset.mem_range] at ha; simp only [Finset.mem_Icc]; omega
  · intro d hd; simp only [Finset.mem_Icc] at hd; simp only [Finset.mem_range]; omega
  · intro a ha; simp
  · intro d hd; simp only [Finset.mem_Icc] at hd; omega
  · intro a ha; rfl

theorem gaussKernel_eq {s : Int} (hs : 0 < s) (d : Int) : gaussKernel s.toNat (4 * s.toNat) d = gaussWeight s d := by
  unfold gaussKernel gaussWeight
  have hc : ((s.toNat : ℕ) : ℝ) = (s : ℝ) := by
    have : ((s.toNat : ℕ) : Int) = s := Int.toNat_of_nonneg hs.le
    exact_mod_cast congrArg (fun z : Int => (z : ℝ)) this
  rw [list_sum_range, sum_offsets (4 * s.toNat) (fun e : Int => Real.exp (-(e : ℝ) ^ 2 / (2 * ((s.toNat : ℕ) : ℝ) ^ 2))), hc]
  congr 2
  · have : ((4 * s.toNat : ℕ) : Int) = 4 * s := by omega
    rw [this]

/-- What a two-dimensional histogram without KDE is made of. -/
theorem smoothedHistogram2d_ok_iff {near : NearFn} {c : Chain ℝ} (hk : c.cfg .kde = (0 : ℝ)) {px py : String} {r : Hist2d} :
    smoothedHistogram2d near c px py = .ok r ↔ ∃ x y w b h0 h1 h2, c.samples.get px = .ok x ∧ c.samples.get py = .ok y ∧
      c.weights = .ok w ∧ bins2d c x y w = .ok b ∧ histogram2d b.1 b.2 x y w = .ok h0 ∧ powRows h0 c.power = .ok h1 ∧
      smoothRows c.smoothValue (b.2.length - 1) h1 = .ok h2 ∧ r = ⟨h2, midpoints b.1, midpoints b.2⟩ := by
  simp only [smoothedHistogram2d, bind_ok_iff]
  constructor
  · rintro ⟨x, hx, y, hy, w, hw, ⟨bx, by'⟩, hb, h0, hh0, h1, hh1, hok⟩
    rw [if_neg (by rw [hk]; simp)] at hok
    rw [bind_ok_iff] at hok
    obtain ⟨h2, hh2, hok⟩ := hok
    cases hok
    exact ⟨x, y, w, (bx, by'), h0, h1, h2, hx, hy, hw, hb, hh0, hh1, hh2, rfl⟩
  · rintro ⟨x, y, w, ⟨bx, by'⟩, h0, h1, h2, hx, hy, hw, hb, hh0, hh1, hh2, rfl⟩
    refine ⟨x, hx, y, hy, w, hw, (bx, by'), hb, h0, hh0, h1, hh1, ?_⟩
    rw [if_neg (by rw [hk]; simp)]
    rw [bind_ok_iff]
    exact ⟨h2, hh2, rfl⟩

theorem getSmoothedBins_snd {s n : Int} {data w : List ℝ} {plot pad : Bool} {b : List ℝ × Int}
    (h : getSmoothedBins s n data w plot pad = .ok b) : b.2 = s := by
  simp only [getSmoothedBins] at h
  rw [bind_ok_iff] at h
  obtain ⟨e, -, h⟩ := h
  split_ifs at h with h0
  · rw [bind_ok_iff] at h
    obtain ⟨l, -, h⟩ := h
    cases h
    exact h0.symm
  · rw [bind_ok_iff] at h
    obtain ⟨l, -, h⟩ := h
    cases h
    rfl

/-- The cells along each axis are those of the one-dimensional histograms. -/
theorem bins2d_ok_iff {c : Chain ℝ} {x y w : List ℝ} {b : List ℝ × List ℝ} :
    bins2d c x y w = .ok b ↔ marginalBins c x w false = .ok b.1 ∧ marginalBins c y w false = .ok b.2 := by
  unfold bins2d marginalBins
  cases c.grid with
  | true =>
    simp only [if_true]
    rw [bind_ok_iff]
    constructor
    · rintro ⟨bx, h1, h2⟩
      rw [bind_ok_iff] at h2
      obtain ⟨by', h2, h3⟩ := h2
      cases h3
      exact ⟨h1, h2⟩
    · rintro ⟨h1, h2⟩
      refine ⟨b.1, h1, ?_⟩
      rw [bind_ok_iff]
      exact ⟨b.2, h2, rfl⟩
  | false =>
    simp only [Bool.false_eq_true, if_false]
    rw [bind_ok_iff, bind_ok_iff, bind_ok_iff]
    constructor
    · rintro ⟨bx, h1, h2⟩
      rw [bind_ok_iff] at h2
      obtain ⟨by', h2, h3⟩ := h2
      rw [getSmoothedBins_snd h1] at h2
      cases h3
      exact ⟨⟨bx, h1, rfl⟩, ⟨by', h2, rfl⟩⟩
    · rintro ⟨⟨bx, h1, h3⟩, ⟨by', h2, h4⟩⟩
      refine ⟨bx, h1, ?_⟩
      rw [bind_ok_iff]
      refine ⟨by', by rw [getSmoothedBins_snd h1]; exact h2, ?_⟩
      rw [pure_ok_iff] at h3 h4 ⊢
      rw [h3, h4]

/-- **C75** (cells). Without KDE, `get_smoothed_histogram2d` divides both axes like the one-dimensional histograms and reports the
centres of the cells. Before smoothing, entry `(i, j)` is the weight of the samples with first coordinate in cell `i` and second
coordinate in cell `j`, to the chain's power; with smoothing, every entry is the Gaussian mean of these over both axes, with the
array continued by its mirror images. -/
theorem C75_cells (near : NearFn) (c : Chain ℝ) (hwf : c.samples.WF) (hk : c.cfg .kde = (0 : ℝ)) (px py : String) (r : Hist2d)
    (hr : smoothedHistogram2d near c px py = .ok r) :
    ∃ x y w ex ey raw, c.samples.get px = .ok x ∧ c.samples.get py = .ok y ∧ c.weights = .ok w ∧
      marginalBins c x w false = .ok ex ∧ marginalBins c y w false = .ok ey ∧ r.xs = midpoints ex ∧ r.ys = midpoints ey ∧
      Rect r.xs.length r.ys.length raw ∧ Rect r.xs.length r.ys.length r.hist ∧
      (∀ i < r.xs.length, ∀ j < r.ys.length,
        cell raw i j = (weightOf x y w fun a b => InCell ex i a ∧ InCell ey j b) ^ c.power) ∧
      (c.smoothValue = 0 → r.hist = raw) ∧
      (c.smoothValue ≠ 0 → ∀ mir : Nat → Int → Nat, (∀ n i, 0 < n → IsMirror n i (mir n i)) →
        ∀ i < r.xs.length, ∀ j < r.ys.length, cell r.hist i j =
          ∑ a ∈ Finset.Icc (-(4 * c.smoothValue)) (4 * c.smoothValue), ∑ b ∈ Finset.Icc (-(4 * c.smoothValue)) (4 * c.smoothValue),
            gaussWeight c.smoothValue a * gaussWeight c.smoothValue b *
              cell raw (mir r.xs.length (i + a)) (mir r.ys.length (j + b))) := by
  obtain ⟨x, y, w, b, h0, h1, h2, hx, hy, hw, hb, hh0, hh1, hh2, rfl⟩ := (smoothedHistogram2d_ok_iff hk).1 hr
  obtain ⟨hbx, hby⟩ := bins2d_ok_iff.1 hb
  obtain ⟨-, rfl⟩ := powRows_ok_iff.1 hh1
  have hlx : x.length = c.samples.index.length := hwf.2 _ (get_mem hx)
  have hly : y.length = c.samples.index.length := hwf.2 _ (get_mem hy)
  have hlw : w.length = c.samples.index.length := hwf.2 _ (get_mem hw)
  have r0 := histogram2d_rect hh0
  have r1 := powRows_rect r0 c.power
  have r2 := smoothRows_rect r1 hh2
  refine ⟨x, y, w, b.1, b.2, h0.map (List.map (· ^ c.power)), hx, hy, hw, hbx, hby, rfl, rfl, ?_, ?_, ?_, ?_, ?_⟩
  · simpa only [midpoints_length] using r1
  · simpa only [midpoints_length] using r2
  · intro i hi j hj
    simp only [midpoints_length] at hi hj
    rw [cell_powRows r0 _ hi hj, cell_histogram2d hh0 hi hj, cellMass_eq (by omega) (by omega)]
  · intro hs
    unfold smoothRows at hh2
    rw [if_pos hs] at hh2
    cases hh2
    rfl
  · intro hs mir hmir i hi j hj
    simp only [midpoints_length] at hi hj ⊢
    have hpos : 0 < c.smoothValue := by
      unfold smoothRows at hh2
      rw [if_neg hs] at hh2
      split_ifs at hh2 with h
      exact h
    have hc : ((4 * c.smoothValue.toNat : ℕ) : Int) = 4 * c.smoothValue := by omega
    have hmr : ∀ n i, 0 < n → mir n i = reflectIndex n i := fun n i hn =>
      isMirror_unique (hmir n i hn) (reflectIndex_isMirror hn i)
    have hm0 : 0 < b.1.length - 1 := by omega
    have hn0 : 0 < b.2.length - 1 := by omega
    rw [cell_smoothRows r1 hh2 hpos hi hj, Finset.sum_comm]
    rw [sum_offsets (4 * c.smoothValue.toNat) (fun a : Int => ∑ q ∈ Finset.range (2 * (4 * c.smoothValue.toNat) + 1),
      gaussKernel c.smoothValue.toNat (4 * c.smoothValue.toNat) a *
        gaussKernel c.smoothValue.toNat (4 * c.smoothValue.toNat) ((q : Int) - (4 * c.smoothValue.toNat : Nat)) *
      cell (h0.map (List.map (· ^ c.power))) (reflectIndex (b.1.length - 1) ((i : Int) + a))
        (reflectIndex (b.2.length - 1) ((j : Int) + ((q : Int) - (4 * c.smoothValue.toNat : Nat))))), hc]
    refine Finset.sum_congr rfl fun a _ => ?_
    have := sum_offsets (4 * c.smoothValue.toNat) (fun d : Int =>
      gaussKernel c.smoothValue.toNat (4 * c.smoothValue.toNat) a *
        gaussKernel c.smoothValue.toNat (4 * c.smoothValue.toNat) d *
      cell (h0.map (List.map (· ^ c.power))) (reflectIndex (b.1.length - 1) ((i : Int) + a))
        (reflectIndex (b.2.length - 1) ((j : Int) + d)))
    rw [hc] at this
    rw [this]
    refine Finset.sum_congr rfl fun d _ => ?_
    rw [gaussKernel_eq hpos, gaussKernel_eq hpos, hmr _ _ hm0, hmr _ _ hn0]

/-! ### Totals -/

/-- The sum of all entries. -/
def Spec.total (m n : Nat) (h : List (List ℝ)) : ℝ := ∑ i ∈ Finset.range m, ∑ j ∈ Finset.range n, cell h i j

theorem sum_getD {l : List ℝ} {n : Nat} (hl : l.length = n) : ∑ j ∈ Finset.range n, l.getD j 0 = l.sum := by
  subst hl
  rw [← list_sum_range]
  congr 1
  refine List.ext_getElem (by simp) fun i h1 h2 => ?_
  simp only [List.getElem_map, List.getElem_range]
  rw [List.getD_eq_getElem?_getD, List.getElem?_eq_getElem h2, Option.getD_some]

theorem total_filter {m n : Nat} {h : List (List ℝ)} (hr : Rect m n h) (s : Nat) :
    total m n (h.map (gaussianFilter s)) = total m n h := by
  refine Finset.sum_congr rfl fun i hi => ?_
  have hi := Finset.mem_range.1 hi
  simp only [cell]
  rw [sum_getD (hr.row hi), sum_getD ((filter_rect hr s).row hi), getD_map_lt _ _ (by rw [hr.rows]; exact hi) [],
    (C47_gaussian_filter s _).2.1]

theorem total_transpose {m n : Nat} {h : List (List ℝ)} (hr : h.length = m) : total n m (transpose n h) = total m n h := by
  unfold total
  rw [Finset.sum_comm]
  exact Finset.sum_congr rfl fun i hi => Finset.sum_congr rfl fun j hj =>
    cell_transpose hr (Finset.mem_range.1 hi) (Finset.mem_range.1 hj)

theorem total_smoothRows {m n : Nat} {h h' : List (List ℝ)} {s : Int} (hr : Rect m n h) (hs : smoothRows s n h = .ok h') :
    total m n h' = total m n h := by
  unfold smoothRows at hs
  split_ifs at hs with h0 h1
  · cases hs; rfl
  · cases hs
    have ht := transpose_rect (n := n) hr.rows
    have hf := filter_rect ht s.toNat
    rw [hr.rows, total_filter (transpose_rect hf.rows), total_transpose hf.rows, total_filter ht, total_transpose hr.rows]

theorem edges_mono {e : List ℝ} (h : (List.zipWith (fun l r => decide (l ≤ r)) e e.tail).all id = true) {i j : Nat} (hij : i ≤ j)
    (hj : j < e.length) : e.getD i 0 ≤ e.getD j 0 := by
  have step : ∀ i, i + 1 < e.length → e.getD i 0 ≤ e.getD (i + 1) 0 := by
    intro i hi
    have hl : i < (List.zipWith (fun l r => decide (l ≤ r)) e e.tail).length := by simp; omega
    have := List.all_eq_true.1 h _ (List.getElem_mem hl)
    simp only [List.getElem_zipWith, id, decide_eq_true_eq, List.getElem_tail] at this
    rw [List.getD_eq_getElem?_getD, List.getD_eq_getElem?_getD, List.getElem?_eq_getElem (by omega : i < e.length),
      List.getElem?_eq_getElem hi]
    exact this
  induction hij with
  | refl => exact le_rfl
  | step hle ih => exact (ih (by omega)).trans (step _ hj)

/-- A value between the outer edges lies in exactly one cell, other values in none. -/
theorem sum_inCell {e : List ℝ} (h : (List.zipWith (fun l r => decide (l ≤ r)) e e.tail).all id = true) (h2 : 2 ≤ e.length) (x v : ℝ) :
    (∑ i ∈ Finset.range (e.length - 1), by classical exact if InCell e i x then v else 0) =
      by classical exact if e.getD 0 0 ≤ x ∧ x ≤ e.getD (e.length - 1) 0 then v else 0 := by
  classical
  by_cases hx : e.getD 0 0 ≤ x ∧ x ≤ e.getD (e.length - 1) 0
  · rw [if_pos hx]
    obtain ⟨i, hi, hb⟩ := exists_inBin h2 hx.1 hx.2
    rw [inBin_iff] at hb
    rw [Finset.sum_eq_single i, if_pos hb]
    · intro j hj hne
      have hj := Finset.mem_range.1 hj
      rw [if_neg]
      intro hc
      rcases lt_or_gt_of_ne hne with hlt | hlt
      · rcases hc.2 with h3 | ⟨h3, -⟩
        · exact absurd ((edges_mono h (show j + 1 ≤ i by omega) (by omega)).trans hb.1) (not_le.2 h3)
        · omega
      · rcases hb.2 with h3 | ⟨h3, -⟩
        · exact absurd ((edges_mono h (show i + 1 ≤ j by omega) (by omega)).trans hc.1) (not_le.2 h3)
        · omega
    · intro hn
      exact absurd (Finset.mem_range.2 hi) hn
  · rw [if_neg hx]
    refine Finset.sum_eq_zero fun i hi => ?_
    have hi := Finset.mem_range.1 hi
    rw [if_neg]
    intro hc
    refine hx ⟨(edges_mono h (Nat.zero_le i) (by omega)).trans hc.1, ?_⟩
    have := edges_mono h (show i + 1 ≤ e.length - 1 by omega) (by omega)
    rcases hc.2 with h3 | ⟨-, h3⟩
    · exact h3.le.trans this
    · exact h3.le.trans this

/-- **C75** (mass). Smoothing keeps the sum of all entries; at power 1 this sum is the weight of the samples that lie between the
outer edges of both axes. -/
theorem C75_mass (near : NearFn) (c : Chain ℝ) (hwf : c.samples.WF) (hk : c.cfg .kde = (0 : ℝ)) (hp : c.power = 1) (px py : String)
    (r : Hist2d) (hr : smoothedHistogram2d near c px py = .ok r) (hx1 : r.xs ≠ []) (hy1 : r.ys ≠ []) :
    ∃ x y w ex ey, c.samples.get px = .ok x ∧ c.samples.get py = .ok y ∧ c.weights = .ok w ∧
      marginalBins c x w false = .ok ex ∧ marginalBins c y w false = .ok ey ∧
      total r.xs.length r.ys.length r.hist = weightOf x y w fun a b =>
        (ex.getD 0 0 ≤ a ∧ a ≤ ex.getD (ex.length - 1) 0) ∧ ey.getD 0 0 ≤ b ∧ b ≤ ey.getD (ey.length - 1) 0 := by
  classical
  obtain ⟨x, y, w, b, h0, h1, h2, hx, hy, hw, hb, hh0, hh1, hh2, rfl⟩ := (smoothedHistogram2d_ok_iff hk).1 hr
  obtain ⟨hbx, hby⟩ := bins2d_ok_iff.1 hb
  obtain ⟨-, rfl⟩ := powRows_ok_iff.1 hh1
  have hlx : x.length = c.samples.index.length := hwf.2 _ (get_mem hx)
  have hly : y.length = c.samples.index.length := hwf.2 _ (get_mem hy)
  have hlw : w.length = c.samples.index.length := hwf.2 _ (get_mem hw)
  have hm0 : 2 ≤ b.1.length := by
    have := List.length_pos_iff.2 hx1
    simp only [midpoints_length] at this
    omega
  have hn0 : 2 ≤ b.2.length := by
    have := List.length_pos_iff.2 hy1
    simp only [midpoints_length] at this
    omega
  have r0 := histogram2d_rect hh0
  have r1 := powRows_rect r0 c.power
  obtain ⟨ho1, ho2, -⟩ := histogram2d_ok_iff.1 hh0
  refine ⟨x, y, w, b.1, b.2, hx, hy, hw, hbx, hby, ?_⟩
  simp only [midpoints_length]
  rw [total_smoothRows r1 hh2]
  have hc : total (b.1.length - 1) (b.2.length - 1) (h0.map (List.map (· ^ c.power))) =
      ∑ i ∈ Finset.range (b.1.length - 1), ∑ j ∈ Finset.range (b.2.length - 1), ∑ k ∈ Finset.range x.length,
        if InCell b.1 i (x.getD k 0) then (if InCell b.2 j (y.getD k 0) then w.getD k 0 else 0) else 0 := by
    refine Finset.sum_congr rfl fun i hi => Finset.sum_congr rfl fun j hj => ?_
    have hi := Finset.mem_range.1 hi
    have hj := Finset.mem_range.1 hj
    rw [cell_powRows r0 _ hi hj, cell_histogram2d hh0 hi hj, cellMass_eq (by omega) (by omega), hp, Real.rpow_one]
    refine Finset.sum_congr rfl fun k _ => ?_
    by_cases h1 : InCell b.1 i (x.getD k 0) <;> by_cases h2 : InCell b.2 j (y.getD k 0) <;>
      simp only [h1, h2, and_self, and_true, and_false, if_true, if_false]
  rw [hc]
  have hsw : ∀ i, (∑ j ∈ Finset.range (b.2.length - 1), ∑ k ∈ Finset.range x.length,
        if InCell b.1 i (x.getD k 0) then (if InCell b.2 j (y.getD k 0) then w.getD k 0 else 0) else 0) =
      ∑ k ∈ Finset.range x.length, if InCell b.1 i (x.getD k 0) then
        (if b.2.getD 0 0 ≤ y.getD k 0 ∧ y.getD k 0 ≤ b.2.getD (b.2.length - 1) 0 then w.getD k 0 else 0) else 0 := by
    intro i
    rw [Finset.sum_comm]
    refine Finset.sum_congr rfl fun k _ => ?_
    by_cases h1 : InCell b.1 i (x.getD k 0)
    · simp only [h1, if_true]
      convert sum_inCell ho2 hn0 (y.getD k 0) (w.getD k 0)
    · simp only [h1, if_false, Finset.sum_const_zero]
  rw [Finset.sum_congr rfl fun i _ => hsw i, Finset.sum_comm]
  refine Finset.sum_congr rfl fun k _ => ?_
  have e : (∑ i ∈ Finset.range (b.1.length - 1), if InCell b.1 i (x.getD k 0) then
        (if b.2.getD 0 0 ≤ y.getD k 0 ∧ y.getD k 0 ≤ b.2.getD (b.2.length - 1) 0 then w.getD k 0 else 0) else 0) =
      if b.1.getD 0 0 ≤ x.getD k 0 ∧ x.getD k 0 ≤ b.1.getD (b.1.length - 1) 0 then
        (if b.2.getD 0 0 ≤ y.getD k 0 ∧ y.getD k 0 ≤ b.2.getD (b.2.length - 1) 0 then w.getD k 0 else 0) else 0 := by
    convert sum_inCell ho1 hm0 (x.getD k 0)
      (if b.2.getD 0 0 ≤ y.getD k 0 ∧ y.getD k 0 ≤ b.2.getD (b.2.length - 1) 0 then w.getD k 0 else 0)
  rw [e]
  by_cases h1 : b.1.getD 0 0 ≤ x.getD k 0 ∧ x.getD k 0 ≤ b.1.getD (b.1.length - 1) 0 <;>
    by_cases h2 : b.2.getD 0 0 ≤ y.getD k 0 ∧ y.getD k 0 ≤ b.2.getD (b.2.length - 1) 0 <;>
    simp only [h1, h2, and_self, and_true, and_false, if_true, if_false]

/-! ### Exchange of the parameters -/

theorem powRows_transpose {m n : Nat} {h h' : List (List ℝ)} {p : ℝ} (r0 : Rect m n h) (hh : powRows h p = .ok h') :
    powRows (transpose n h) p = .ok (transpose n h') := by
  obtain ⟨hz, rfl⟩ := powRows_ok_iff.1 hh
  have r1 := powRows_rect r0 p
  rw [powRows_ok_iff]
  constructor
  · rcases hz with hz | hz
    · exact Or.inl hz
    · right
      intro q hq v hv
      obtain ⟨j, hj, rfl⟩ := List.mem_map.1 hq
      obtain ⟨row, hrow, rfl⟩ := List.mem_map.1 hv
      have hj' : j < row.length := by rw [r0.cols _ hrow]; exact List.mem_range.1 hj
      rw [List.getD_eq_getElem?_getD, List.getElem?_eq_getElem hj', Option.getD_some]
      exact hz _ hrow _ (List.getElem_mem _)
  · refine rect_ext (transpose_rect (by simpa using r0.rows)) (powRows_rect (transpose_rect r0.rows) _) fun j hj i hi => ?_
    rw [cell_transpose r1.rows hi hj, cell_powRows r0 _ hi hj, cell_powRows (transpose_rect r0.rows) _ hj hi,
      cell_transpose r0.rows hi hj]

/-- **C76, partial.** Without KDE, exchanging the two parameters exchanges the axes: the histogram of the exchanged parameters
exists too, with the coordinates and the array exchanged. Missing: KDE, where on a grid the number of points along both axes is
taken from the first parameter (`C76_violated`). -/
theorem C76_exchange_partial (near : NearFn) (c : Chain ℝ) (hk : c.cfg .kde = (0 : ℝ)) (px py : String) (r : Hist2d)
    (hr : smoothedHistogram2d near c px py = .ok r) (hx1 : r.xs ≠ []) (hy1 : r.ys ≠ []) :
    ∃ r', smoothedHistogram2d near c py px = .ok r' ∧ r'.xs = r.ys ∧ r'.ys = r.xs ∧ Rect r.ys.length r.xs.length r'.hist ∧
      ∀ i < r.xs.length, ∀ j < r.ys.length, cell r'.hist j i = cell r.hist i j := by
  obtain ⟨x, y, w, b, h0, h1, h2, hx, hy, hw, hb, hh0, hh1, hh2, rfl⟩ := (smoothedHistogram2d_ok_iff hk).1 hr
  obtain ⟨hbx, hby⟩ := bins2d_ok_iff.1 hb
  obtain ⟨hz, rfl⟩ := powRows_ok_iff.1 hh1
  have r0 := histogram2d_rect hh0
  have r1 := powRows_rect r0 c.power
  have r2 := smoothRows_rect r1 hh2
  have hm0 : 0 < b.1.length - 1 := by
    have := List.length_pos_iff.2 hx1
    simpa only [midpoints_length] using this
  have hn0 : 0 < b.2.length - 1 := by
    have := List.length_pos_iff.2 hy1
    simpa only [midpoints_length] using this
  refine ⟨⟨transpose (b.2.length - 1) h2, midpoints b.2, midpoints b.1⟩, ?_, rfl, rfl, ?_, ?_⟩
  · exact (smoothedHistogram2d_ok_iff hk).2 ⟨y, x, w, (b.2, b.1), _, _, _, hy, hx, hw, bins2d_ok_iff.2 ⟨hby, hbx⟩,
      histogram2d_swap hh0, powRows_transpose r0 hh1, smoothRows_transpose r1 hm0 hn0 hh2, rfl⟩
  · simpa only [midpoints_length] using transpose_rect (n := b.2.length - 1) r2.rows
  · intro i hi j hj
    simp only [midpoints_length] at hi hj
    exact cell_transpose r2.rows hi hj

/-! With KDE -/

/-- What a two-dimensional histogram with KDE is made of. -/
theorem smoothedHistogram2d_kde_ok_iff {near : NearFn} {c : Chain ℝ} (hk : c.cfg .kde ≠ (0 : ℝ)) {px py : String} {r : Hist2d} :
    smoothedHistogram2d near c px py = .ok r ↔ ∃ x y w b h0 h1, c.samples.get px = .ok x ∧ c.samples.get py = .ok y ∧
      c.weights = .ok w ∧ bins2d c x y w = .ok b ∧ histogram2d b.1 b.2 x y w = .ok h0 ∧ powRows h0 c.power = .ok h1 ∧
      kde2d near c x y w b.1 b.2 = .ok r := by
  simp only [smoothedHistogram2d, bind_ok_iff]
  constructor
  · rintro ⟨x, hx, y, hy, w, hw, ⟨bx, by'⟩, hb, h0, hh0, h1, hh1, hok⟩
    rw [if_pos hk] at hok
    exact ⟨x, y, w, (bx, by'), h0, h1, hx, hy, hw, hb, hh0, hh1, hok⟩
  · rintro ⟨x, y, w, ⟨bx, by'⟩, h0, h1, hx, hy, hw, hb, hh0, hh1, hok⟩
    refine ⟨x, hx, y, hy, w, hw, (bx, by'), hb, h0, hh0, h1, hh1, ?_⟩
    rw [if_pos hk]
    exact hok

theorem kde2d_ok_iff {near : NearFn} {c : Chain ℝ} {x y w bx by' : List ℝ} {r : Hist2d} :
    kde2d near c x y w bx by' = .ok r ↔ ∃ x0 x1 y0 y1 v, arrMin bx = .ok x0 ∧ arrMax bx = .ok x1 ∧ arrMin by' = .ok y0 ∧
      arrMax by' = .ok y1 ∧ megKde2d near x y w (c.cfg .kde) (linspace x0 x1 ((midpoints bx).length * 2))
        (linspace y0 y1 ((midpoints bx).length * 2)) = .ok v ∧ ∃ v', powRows v c.power = .ok v' ∧
      r = ⟨v', linspace x0 x1 ((midpoints bx).length * 2), linspace y0 y1 ((midpoints bx).length * 2)⟩ := by
  simp only [kde2d, bind_ok_iff, pure_ok_iff]
  constructor
  · rintro ⟨x0, h1, x1, h2, y0, h3, y1, h4, v, h5, v', h6, h7⟩
    exact ⟨x0, x1, y0, y1, v, h1, h2, h3, h4, h5, v', h6, h7.symm⟩
  · rintro ⟨x0, x1, y0, y1, v, h1, h2, h3, h4, h5, v', h6, h7⟩
    exact ⟨x0, h1, x1, h2, y0, h3, y1, h4, v, h5, v', h6, h7.symm⟩

theorem twoPoints_swap {n : ℕ} (x y : List ℝ) (hx : x.length = n) (hy : y.length = n) :
    affineImage !![0, 1; 1, 0] 0 (twoPoints x y hx hy) = twoPoints y x hy hx := by
  funext i j
  fin_cases j <;> simp [affineImage, twoPoints]

theorem kdeAt_swap {near : NearFn} (hn : NearOk near) {n : ℕ} (x y : List ℝ) (hx : x.length = n) (hy : y.length = n) {w : Fin n → ℝ}
    {tr f : ℝ} {m : ℕ} {a b : ℝ} (ht : NoTies (twoPoints x y hx hy) w tr m f ![a, b]) :
    kdeAt near (twoPoints y x hy hx) w tr m f ![b, a] = kdeAt near (twoPoints x y hx hy) w tr m f ![a, b] := by
  have := C49_affine_partial hn (x := twoPoints x y hx hy) (w := w) (M := !![0, 1; 1, 0]) (by simp [Matrix.det_fin_two]) 0 ht
  rw [← this, twoPoints_swap]
  congr 1
  funext j
  fin_cases j <;> simp

theorem cell_of_forall₂ {A B : List ℝ} {h : List (List ℝ)} {R : ℝ → ℝ → ℝ → Prop}
    (hF : List.Forall₂ (fun a r => List.Forall₂ (fun b v => R a b v) B r) A h) :
    Rect A.length B.length h ∧ ∀ i < A.length, ∀ j < B.length, R (A.getD i 0) (B.getD j 0) (cell h i j) := by
  have h1 := List.forall₂_iff_get.1 hF
  have hrow : ∀ i (hi : i < h.length), (h[i]).length = B.length := fun i hi =>
    (List.forall₂_iff_get.1 (h1.2 i (by omega) hi)).1.symm
  refine ⟨⟨h1.1.symm, fun r hr => ?_⟩, fun i hi j hj => ?_⟩
  · obtain ⟨i, hi, rfl⟩ := List.mem_iff_getElem.1 hr
    exact hrow i hi
  · have hi' : i < h.length := by omega
    have h2 := List.forall₂_iff_get.1 (h1.2 i hi hi')
    have hj' : j < (h[i]).length := by rw [hrow i hi']; exact hj
    have h3 := h2.2 j hj hj'
    simp only [cell]
    rw [List.getD_eq_getElem?_getD, List.getElem?_eq_getElem hi, Option.getD_some, List.getD_eq_getElem?_getD,
      List.getElem?_eq_getElem hj, Option.getD_some, List.getD_eq_getElem?_getD (l := h), List.getElem?_eq_getElem hi',
      Option.getD_some, List.getD_eq_getElem?_getD, List.getElem?_eq_getElem hj', Option.getD_some]
    exact h3

theorem linspace_len (a b : ℝ) (n : Nat) : (linspace a b n).length = n := by simp [linspace]

/-- **C76, partial**, with KDE: if both axes have the same number of cells and no evaluated point has rows of different weight at
the same distance, exchanging the parameters exchanges the axes here too. -/
theorem C76_exchange_kde_partial {near : NearFn} (hn : NearOk near) (c : Chain ℝ) (hk : c.cfg .kde ≠ (0 : ℝ)) (px py : String)
    (r : Hist2d) (hr : smoothedHistogram2d near c px py = .ok r) (hx1 : r.xs ≠ [])
    (hsame : ∀ x y w ex ey, c.samples.get px = .ok x → c.samples.get py = .ok y → c.weights = .ok w →
      marginalBins c x w false = .ok ex → marginalBins c y w false = .ok ey → ex.length = ey.length)
    (hties : ∀ x y w, c.samples.get px = .ok x → c.samples.get py = .ok y → c.weights = .ok w →
      ∀ (hy : y.length = x.length) (hw : w.length = x.length), ∀ a ∈ r.xs, ∀ b ∈ r.ys,
        NoTies (twoPoints x y rfl hy) (entries w hw) (c.cfg .kde) 4 1 ![a, b]) :
    ∃ r', smoothedHistogram2d near c py px = .ok r' ∧ r'.xs = r.ys ∧ r'.ys = r.xs ∧ Rect r.ys.length r.xs.length r'.hist ∧
      ∀ i < r.xs.length, ∀ j < r.ys.length, cell r'.hist j i = cell r.hist i j := by
  obtain ⟨x, y, w, b, h0, h1, hx, hy, hw, hb, hh0, hh1, hK⟩ := (smoothedHistogram2d_kde_ok_iff hk).1 hr
  obtain ⟨x0, x1, y0, y1, v, e1, e2, e3, e4, hv, v', hv', rfl⟩ := kde2d_ok_iff.1 hK
  obtain ⟨hbx, hby⟩ := bins2d_ok_iff.1 hb
  have hl := hsame _ _ _ _ _ hx hy hw hbx hby
  obtain ⟨ly, lw, hF⟩ := megKde2d_ok hv
  have hnn : (midpoints b.2).length = (midpoints b.1).length := by rw [midpoints_length, midpoints_length, hl]
  set nn := (midpoints b.1).length * 2 with hnd
  obtain ⟨rv, hc⟩ := cell_of_forall₂ hF
  simp only [linspace_len] at rv hc
  have hn0 : 0 < nn := by
    have := List.length_pos_iff.2 hx1
    simpa only [linspace_len] using this
  have hmem : ∀ (a b : ℝ) i, i < nn → (linspace a b nn).getD i 0 ∈ linspace a b nn := by
    intro a b i hi
    rw [List.getD_eq_getElem?_getD, List.getElem?_eq_getElem (by rw [linspace_len]; exact hi), Option.getD_some]
    exact List.getElem_mem _
  have hT := hties _ _ _ hx hy hw ly lw
  -- the exchanged estimate exists
  have hval := hc 0 hn0 0 hn0
  obtain ⟨-, ht, h4, -⟩ := kdeAt_spec hn hval
  have ht' : Trainable (twoPoints y x ly rfl) (entries w lw) := by
    rw [← twoPoints_swap x y rfl ly]
    exact (trainable_affine (by simp [Matrix.det_fin_two]) 0).2 ht
  have lx : x.length = y.length := ly.symm
  have lw' : w.length = y.length := lw.trans lx
  have hcast : ∀ (n : ℕ) (h1 : x.length = n) (h2 : y.length = n) (h3 : w.length = n),
      (Trainable (twoPoints y x h2 h1) (entries w h3) ↔ Trainable (twoPoints y x ly rfl) (entries w lw)) ∧
      ∀ t, kdeAt near (twoPoints y x h2 h1) (entries w h3) (c.cfg .kde) 4 1 t =
        kdeAt near (twoPoints y x ly rfl) (entries w lw) (c.cfg .kde) 4 1 t := by
    intro n h1 h2 h3
    subst h1
    exact ⟨Iff.rfl, fun t => rfl⟩
  obtain ⟨u, hu⟩ := megKde2d_exists near lx lw' ((hcast _ lx rfl lw').1.2 ht') (by omega) (c.cfg .kde) (linspace y0 y1 nn)
    (linspace x0 x1 nn)
  obtain ⟨lx2, lw2, hF2⟩ := megKde2d_ok hu
  obtain ⟨ru, hc2⟩ := cell_of_forall₂ hF2
  simp only [linspace_len] at ru hc2
  have hut : u = transpose nn v := by
    refine rect_ext ru (transpose_rect rv.rows) fun j hj i hi => ?_
    rw [cell_transpose rv.rows hi hj]
    have h5 := hc2 j hj i hi
    rw [(hcast _ lx2 rfl lw2).2, kdeAt_swap hn x y rfl ly (hT _ (hmem _ _ i hi) _ (hmem _ _ j hj)), hc i hi j hj] at h5
    exact (Except.ok.inj h5).symm
  have rv' : Rect nn nn v' := by
    obtain ⟨-, rfl⟩ := powRows_ok_iff.1 hv'
    exact powRows_rect rv _
  refine ⟨⟨transpose nn v', linspace y0 y1 nn, linspace x0 x1 nn⟩, ?_, rfl, rfl, ?_, ?_⟩
  · refine (smoothedHistogram2d_kde_ok_iff hk).2 ⟨y, x, w, (b.2, b.1), _, _, hy, hx, hw, bins2d_ok_iff.2 ⟨hby, hbx⟩,
      histogram2d_swap hh0, powRows_transpose (histogram2d_rect hh0) hh1, ?_⟩
    refine kde2d_ok_iff.2 ⟨y0, y1, x0, x1, u, e3, e4, e1, e2, ?_, transpose nn v', ?_, ?_⟩
    · simp only [hnn]
      exact hu
    · rw [hut]
      exact powRows_transpose rv hv'
    · simp only [hnn]
      rfl
  · simp only [linspace_len]
    exact transpose_rect rv'.rows
  · intro i hi j hj
    simp only [linspace_len] at hi hj
    exact cell_transpose rv'.rows hi hj

/-- With KDE both axes have twice as many points as the first parameter has cells. -/
theorem C76_kde_axes {near : NearFn} (c : Chain ℝ) (hk : c.cfg .kde ≠ (0 : ℝ)) (px py : String) (r : Hist2d)
    (hr : smoothedHistogram2d near c px py = .ok r) : ∃ x w ex, c.samples.get px = .ok x ∧ c.weights = .ok w ∧
      marginalBins c x w false = .ok ex ∧ r.xs.length = 2 * (ex.length - 1) ∧ r.ys.length = 2 * (ex.length - 1) := by
  obtain ⟨x, y, w, b, h0, h1, hx, hy, hw, hb, hh0, hh1, hK⟩ := (smoothedHistogram2d_kde_ok_iff hk).1 hr
  obtain ⟨x0, x1, y0, y1, v, e1, e2, e3, e4, hv, v', hv', rfl⟩ := kde2d_ok_iff.1 hK
  refine ⟨x, w, b.1, hx, hw, (bins2d_ok_iff.1 hb).1, ?_, ?_⟩ <;> simp only [linspace_len, midpoints_length] <;> omega

/-- Four points, with two values of `x` and three of `y`. -/
def stepFrame : Frame ℝ :=
  ⟨[.int 0, .int 1, .int 2, .int 3], [("x", [0, 0, 1, 1]), ("y", [0, 1, 0, 2]), ("weight", [1, 1, 1, 1])]⟩

/-- A grid chain of them. -/
noncomputable def stepArgs (kw : List (Kwarg ℝ)) : Args ℝ where
  samples := stepFrame.toRaw
  name := "step"
  grid := true
  config := kw

theorem stepFrame_wf : stepFrame.WF := ⟨by simp [stepFrame], by simp [stepFrame]⟩

theorem step_bins_x : getGridBins ([0, 0, 1, 1] : List ℝ) = .ok [-1 / 2, 1 / 2, 3 / 2] := by
  have : sortUnique ([0, 0, 1, 1] : List ℝ) = [0, 1] :=
    increasing_unique (sortUnique_increasing _) (by simp) fun x => by rw [mem_sortUnique]; simp
  simp only [getGridBins, this]
  norm_num [pure, Except.pure, bind, Except.bind]

theorem step_bins_y : getGridBins ([0, 1, 0, 2] : List ℝ) = .ok [-1 / 2, 1 / 2, 3 / 2, 5 / 2] := by
  have : sortUnique ([0, 1, 0, 2] : List ℝ) = [0, 1, 2] :=
    increasing_unique (sortUnique_increasing _) (by norm_num) fun x => by rw [mem_sortUnique]; simp; tauto
  simp only [getGridBins, this]
  norm_num [pure, Except.pure, bind, Except.bind]

theorem step_bins {c : Chain ℝ} (hg : c.grid = true) : bins2d c [0, 0, 1, 1] [0, 1, 0, 2] [1, 1, 1, 1] =
    .ok ([-1 / 2, 1 / 2, 3 / 2], [-1 / 2, 1 / 2, 3 / 2, 5 / 2]) := by
  unfold bins2d
  rw [if_pos hg, step_bins_x, step_bins_y]
  rfl

theorem step_histogram : ∃ h0, histogram2d (K := ℝ) [-1 / 2, 1 / 2, 3 / 2] [-1 / 2, 1 / 2, 3 / 2, 5 / 2]
    [0, 0, 1, 1] [0, 1, 0, 2] [1, 1, 1, 1] = .ok h0 := by
  unfold histogram2d
  norm_num [ensure, bind, Except.bind, pure, Except.pure]

theorem step_trainable :
    Trainable (twoPoints (n := 4) [0, 0, 1, 1] [0, 1, 0, 2] rfl rfl) (entries (n := 4) [1, 1, 1, 1] rfl) := by
  refine (trainable_iff ?_).2 ⟨by norm_num, ?_⟩
  · intro i
    fin_cases i <;> simp [entries]
  · intro v hv
    have h1 := hv 0 1
    have h2 := hv 0 2
    simp [twoPoints, entries, dotProduct, Fin.sum_univ_two] at h1 h2
    funext j
    fin_cases j
    · simpa using h2.symm
    · simpa using h1.symm

theorem step_trainable_swap :
    Trainable (twoPoints (n := 4) [0, 1, 0, 2] [0, 0, 1, 1] rfl rfl) (entries (n := 4) [1, 1, 1, 1] rfl) := by
  rw [← twoPoints_swap]
  exact (trainable_affine (by simp [Matrix.det_fin_two]) 0).2 step_trainable

theorem powRows_exists {p : ℝ} (hp : 0 ≤ p) (h : List (List ℝ)) : ∃ h', powRows h p = .ok h' :=
  ⟨_, powRows_ok_iff.2 ⟨Or.inl hp, rfl⟩⟩

theorem arr_exists {e : List ℝ} (he : e ≠ []) : ∃ a b, arrMin e = .ok a ∧ arrMax e = .ok b := by
  cases e with
  | nil => exact absurd rfl he
  | cons a l => exact ⟨_, _, rfl, rfl⟩

/-- The code does not satisfy C76 with KDE: on this grid both histograms exist, but the one of `x, y` has four points along `y` and
the one of `y, x` has six. -/
theorem C76_violated (near : NearFn) : ∃ c r r', Chain.make (stepArgs [⟨.kde, (1 : ℝ)⟩]) = .ok c ∧
    smoothedHistogram2d near c "x" "y" = .ok r ∧ smoothedHistogram2d near c "y" "x" = .ok r' ∧
    r.ys.length = 4 ∧ r'.xs.length = 6 := by
  obtain ⟨c, hc, hcs, hw, -, hp, hg, -, -, hcfg⟩ :=
    plain_chain_cfg true [⟨.kde, (1 : ℝ)⟩] rfl
      (by change (0 : ℝ) ≤ 6827 / 10000 ∧ (6827 / 10000 : ℝ) ≤ 1; constructor <;> norm_num)
      (by change (1 : ℝ) ≤ 10; norm_num) rfl rfl (by intro h; cases h) stepFrame stepFrame_wf
      (by simp [stepFrame]) (w := [1, 1, 1, 1]) rfl (by simp) "step" 1 le_rfl (one_dvd _)
  have hk : c.cfg .kde = (1 : ℝ) := by rw [hcfg]; rfl
  have hk0 : c.cfg .kde ≠ (0 : ℝ) := by rw [hk]; norm_num
  have hwt : c.weights = .ok [1, 1, 1, 1] := by unfold Chain.weights; rw [hcs, hw]; rfl
  have hx : c.samples.get "x" = .ok [0, 0, 1, 1] := by rw [hcs]; rfl
  have hy : c.samples.get "y" = .ok [0, 1, 0, 2] := by rw [hcs]; rfl
  have hp0 : 0 ≤ c.power := by rw [hp]; norm_num
  obtain ⟨h0, hh0⟩ := step_histogram
  obtain ⟨h1, hh1⟩ := powRows_exists hp0 h0
  obtain ⟨h2, hh2⟩ := powRows_exists hp0 (transpose 3 h0)
  obtain ⟨x0, x1, e1, e2⟩ := arr_exists (e := ([-1 / 2, 1 / 2, 3 / 2] : List ℝ)) (by simp)
  obtain ⟨y0, y1, e3, e4⟩ := arr_exists (e := ([-1 / 2, 1 / 2, 3 / 2, 5 / 2] : List ℝ)) (by simp)
  obtain ⟨v, hv⟩ := megKde2d_exists near (x := [0, 0, 1, 1]) (y := [0, 1, 0, 2]) (w := [1, 1, 1, 1]) rfl rfl step_trainable (by simp)
    (c.cfg .kde) (linspace x0 x1 4) (linspace y0 y1 4)
  obtain ⟨u, hu⟩ := megKde2d_exists near (x := [0, 1, 0, 2]) (y := [0, 0, 1, 1]) (w := [1, 1, 1, 1]) rfl rfl step_trainable_swap
    (by simp) (c.cfg .kde) (linspace y0 y1 6) (linspace x0 x1 6)
  obtain ⟨v', hv'⟩ := powRows_exists hp0 v
  obtain ⟨u', hu'⟩ := powRows_exists hp0 u
  have hb := step_bins hg
  have hb' : bins2d c [0, 1, 0, 2] [0, 0, 1, 1] [1, 1, 1, 1] = .ok ([-1 / 2, 1 / 2, 3 / 2, 5 / 2], [-1 / 2, 1 / 2, 3 / 2]) :=
    bins2d_ok_iff.2 ⟨(bins2d_ok_iff.1 hb).2, (bins2d_ok_iff.1 hb).1⟩
  refine ⟨c, ⟨v', linspace x0 x1 4, linspace y0 y1 4⟩, ⟨u', linspace y0 y1 6, linspace x0 x1 6⟩, hc, ?_, ?_,
    linspace_len _ _ _, linspace_len _ _ _⟩
  · exact (smoothedHistogram2d_kde_ok_iff hk0).2 ⟨_, _, _, _, _, _, hx, hy, hwt, hb, hh0, hh1,
      kde2d_ok_iff.2 ⟨x0, x1, y0, y1, v, e1, e2, e3, e4, hv, v', hv', rfl⟩⟩
  · exact (smoothedHistogram2d_kde_ok_iff hk0).2 ⟨_, _, _, (_, _), _, _, hy, hx, hwt, hb', histogram2d_swap hh0, hh2,
      kde2d_ok_iff.2 ⟨y0, y1, x0, x1, u, e3, e4, e1, e2, hu, u', hu', rfl⟩⟩

/-- The hypotheses of `C75_cells`, `C75_mass` and `C76_exchange_partial` are met by the same grid without KDE, smoothed with width 1. -/
theorem step_plain (near : NearFn) : ∃ c r, Chain.make (stepArgs [⟨.smooth, some 1⟩]) = .ok c ∧ c.samples.WF ∧ c.cfg .kde = (0 : ℝ) ∧ c.power = 1 ∧
    c.smoothValue = 1 ∧ smoothedHistogram2d near c "x" "y" = .ok r ∧ r.xs.length = 2 ∧ r.ys.length = 3 := by
  obtain ⟨c, hc, hcs, hw, -, hp, hg, -, -, hcfg⟩ :=
    plain_chain_cfg (K := ℝ) true [⟨.smooth, some 1⟩] rfl
      (by change (0 : ℝ) ≤ 6827 / 10000 ∧ (6827 / 10000 : ℝ) ≤ 1; constructor <;> norm_num)
      (by change (1 : ℝ) ≤ 10; norm_num) rfl rfl (by intro h; cases h) stepFrame stepFrame_wf
      (by simp [stepFrame]) (w := [1, 1, 1, 1]) rfl (by simp) "step" 1 le_rfl (one_dvd _)
  have hk : c.cfg .kde = (0 : ℝ) := by rw [hcfg]; rfl
  have hwt : c.weights = .ok [1, 1, 1, 1] := by unfold Chain.weights; rw [hcs, hw]; rfl
  have hx : c.samples.get "x" = .ok [0, 0, 1, 1] := by rw [hcs]; rfl
  have hy : c.samples.get "y" = .ok [0, 1, 0, 2] := by rw [hcs]; rfl
  have hp0 : 0 ≤ c.power := by rw [hp]; norm_num
  have hs : c.smoothValue = 1 := by unfold Chain.smoothValue; rw [hcfg]; rfl
  obtain ⟨h0, hh0⟩ := step_histogram
  obtain ⟨h1, hh1⟩ := powRows_exists hp0 h0
  obtain ⟨h2, hh2⟩ := smoothRows_exists (by omega : 0 ≤ c.smoothValue) 3 h1
  exact ⟨c, _, hc, by rw [hcs]; exact stepFrame_wf, hk, hp, hs, (smoothedHistogram2d_ok_iff hk).2
    ⟨_, _, _, _, _, _, _, hx, hy, hwt, step_bins hg, hh0, hh1, hh2, rfl⟩, rfl, rfl⟩

example (near : NearFn) : ∃ c r, c.samples.WF ∧ c.cfg .kde = (0 : ℝ) ∧ c.power = 1 ∧
    c.smoothValue ≠ 0 ∧ smoothedHistogram2d near c "x" "y" = .ok r ∧ r.xs ≠ [] ∧ r.ys ≠ [] := by
  obtain ⟨c, r, -, h1, h2, h3, hs, h4, h5, h6⟩ := step_plain near
  exact ⟨c, r, h1, h2, h3, by rw [hs]; norm_num, h4, by intro h; simp [h] at h5, by intro h; simp [h] at h6⟩

/-- The hypotheses of `C76_exchange_kde_partial` are met by the corners of a square, where all weights are equal. -/
example : ∃ near : NearFn, NearOk near ∧ ∃ c r, c.cfg .kde ≠ (0 : ℝ) ∧ smoothedHistogram2d near c "x" "y" = .ok r ∧ r.xs ≠ [] ∧
    (∀ x y w ex ey, c.samples.get "x" = .ok x → c.samples.get "y" = .ok y → c.weights = .ok w →
      marginalBins c x w false = .ok ex → marginalBins c y w false = .ok ey → ex.length = ey.length) ∧
    ∀ x y w, c.samples.get "x" = .ok x → c.samples.get "y" = .ok y → c.weights = .ok w →
      ∀ (hy : y.length = x.length) (hw : w.length = x.length), ∀ a ∈ r.xs, ∀ b ∈ r.ys,
        NoTies (twoPoints x y rfl hy) (entries w hw) (c.cfg .kde) 4 1 ![a, b] := by
  obtain ⟨near, hn⟩ := nearOk_exists
  obtain ⟨c, r, hc, hr, hx1, -, -⟩ := C50_violated hn
  refine ⟨near, hn, c, r, ?_⟩
  have hf : squareFrame.WF := ⟨by simp [squareFrame], by simp [squareFrame]⟩
  obtain ⟨c', hc', hcs, hw, -, hp, hg, -, -, hcfg⟩ :=
    plain_chain_cfg true [⟨.kde, (10 : ℝ)⟩] rfl
      (by change (0 : ℝ) ≤ 6827 / 10000 ∧ (6827 / 10000 : ℝ) ≤ 1; constructor <;> norm_num)
      (by change (1 : ℝ) ≤ 10; norm_num) rfl rfl (by intro h; cases h) squareFrame hf
      (by simp [squareFrame]) (w := [1, 1, 1, 1]) rfl (by simp) "square" 1 le_rfl (one_dvd _)
  have : c' = c := by
    have h := hc'.symm.trans hc
    exact Except.ok.inj h
  subst this
  have hwt : c'.weights = .ok [1, 1, 1, 1] := by unfold Chain.weights; rw [hcs, hw]; rfl
  have hx : c'.samples.get "x" = .ok [0, 0, 1, 1] := by rw [hcs]; rfl
  have hy : c'.samples.get "y" = .ok [0, 1, 0, 1] := by rw [hcs]; rfl
  refine ⟨by rw [hcfg]; change (10 : ℝ) ≠ 0; norm_num, hr, hx1, ?_, ?_⟩
  · intro x y w ex ey e1 e2 e3 e4 e5
    rw [hx] at e1
    rw [hy] at e2
    cases e1
    cases e2
    unfold marginalBins at e4 e5
    rw [if_pos hg] at e4 e5
    have hu : sortUnique ([0, 1, 0, 1] : List ℝ) = sortUnique [0, 0, 1, 1] :=
      increasing_unique (sortUnique_increasing _) (sortUnique_increasing _) fun x => by
        rw [mem_sortUnique, mem_sortUnique]; simp; tauto
    unfold getGridBins at e4 e5
    rw [hu, e4] at e5
    exact congrArg List.length (Except.ok.inj e5)
  · intro x y w e1 e2 e3 ly lw a _ b _
    rw [hwt] at e3
    rw [hx] at e1
    cases e1
    cases e3
    refine Or.inr fun i j _ => ?_
    fin_cases i <;> fin_cases j <;> rfl

end CC
