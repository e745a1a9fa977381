import Verif.Props.Shift

/-! Lemmas about blocks of rows and the arguments `divide` passes on. -/

namespace CC
open Spec

/-- Consecutive blocks of equal size, glued together, are the original list. -/
theorem flatten_blocks {α : Type _} (l : List α) (k n : Nat) :
    ((List.range k).map fun i => (l.drop (i * n)).take n).flatten = l.take (k * n) := by
  induction k with
  | zero => simp
  | succ k ih =>
    rw [List.range_succ, List.map_append, List.flatten_append, ih, Nat.succ_mul, List.take_add]
    simp

section
variable {K : Type}

theorem apply_dump (g c : Cfg K) (ks : List Key) (k : Key) :
    Cfg.apply c (ks.map fun k => (⟨k, g k⟩ : Kwarg K)) k = if k ∈ ks then g k else c k := by
  induction ks generalizing c with
  | nil => simp [Cfg.apply]
  | cons a ks ih =>
    have : Cfg.apply c ((a :: ks).map fun k => (⟨k, g k⟩ : Kwarg K)) =
        Cfg.apply (c.set ⟨a, g a⟩) (ks.map fun k => (⟨k, g k⟩ : Kwarg K)) := rfl
    rw [this, ih]
    by_cases h1 : k ∈ ks
    · simp [h1]
    · by_cases h2 : k = a
      · subst h2; simp [h1, Cfg.set]
      · simp [h1, h2, Cfg.set]

theorem rows_columns (f : Frame K) (s n : Nat) : (f.rows s n).columns = f.columns := by
  simp [Frame.rows, Frame.columns, Function.comp_def]

theorem rows_WF {f : Frame K} (h : f.WF) (s n : Nat) : (f.rows s n).WF := by
  refine ⟨?_, ?_⟩
  · have := rows_columns f s n
    simp only [Frame.columns] at this
    rw [this]; exact h.1
  · intro c hc
    simp only [Frame.rows, List.mem_map] at hc
    obtain ⟨d, hd, rfl⟩ := hc
    simp [Frame.rows, h.2 d hd]

theorem rows_get (f : Frame K) (s n : Nat) (p : String) :
    (f.rows s n).get p = (f.get p).map fun x => (x.drop s).take n := by
  simp only [Frame.get, Frame.rows]
  have : ∀ d : List (String × List K),
      (d.map fun c => (c.1, (c.2.drop s).take n)).lookup p
        = (d.lookup p).map fun x => (x.drop s).take n := by
    intro d
    induction d with
    | nil => rfl
    | cons e d ih =>
      obtain ⟨a, b⟩ := e
      simp only [List.map_cons, List.lookup_cons]
      cases p == a <;> simp [ih]
  rw [this]
  cases f.cols.lookup p <;> rfl

variable [Field K]

theorem shiftColumn_WF [LinearOrder K] {wc p : String} {f f' : Frame K} (h : f.WF)
    (hs : shiftColumn wc f p = .ok f') : f'.WF ∧ f'.index = f.index := by
  obtain ⟨w, x, m, -, hx, -, rfl⟩ := shiftColumn_ok_iff.1 hs
  refine ⟨⟨?_, ?_⟩, rfl⟩
  · have := columns_set f p (x.map (· - m))
    simp only [Frame.columns] at this
    rw [this]; exact h.1
  · intro c hc
    simp only [Frame.set, List.mem_map] at hc
    obtain ⟨d, hd, rfl⟩ := hc
    split
    · simpa [Frame.set] using h.2 _ (get_mem hx)
    · exact h.2 d hd

theorem shift_WF [LinearOrder K] {wc : String} {ps : List String} {f f' : Frame K} (h : f.WF)
    (hs : ps.foldlM (shiftColumn wc) f = .ok f') : f'.WF ∧ f'.index = f.index := by
  induction ps generalizing f with
  | nil => cases hs; exact ⟨h, rfl⟩
  | cons p ps ih =>
    rw [List.foldlM_cons, bind_ok_iff] at hs
    obtain ⟨g, hg, hs⟩ := hs
    obtain ⟨h1, h2⟩ := shiftColumn_WF h hg
    obtain ⟨h3, h4⟩ := ih h1 hs
    exact ⟨h3, h4.trans h2⟩

/-- The table of every accepted chain is well formed, has the user's rows, and has a weight
column. -/
theorem make_WF [LinearOrder K] [IsStrictOrderedRing K] {a : Args K} {c : Chain K}
    (hwf : a.samples.WF) (h : Chain.make a = .ok c) :
    c.samples.WF ∧ c.samples.index = a.samples.index ∧ c.samples.index ≠ [] ∧
      c.weightColumn ∈ c.samples.columns ∧ 1 ≤ c.walkers ∧
      c.walkers ∣ c.samples.index.length := by
  obtain ⟨col, raw, f0, f, h1, h2, h3, h4, h5, h6, h7, h8, h9, h10, rfl⟩ := Chain.make_ok_iff.1 h
  obtain ⟨hf1, hf2, w, hw, -, -⟩ := make_frame hwf h4 h5
  obtain ⟨-, -, k3, -⟩ := (constraints_iff a).1 ⟨h2, h9⟩
  simp only [RawFrame.empty, Bool.or_eq_false_iff, List.isEmpty_eq_false_iff] at h3
  have hdvd : a.walkers.toNat ∣ f.index.length := Nat.dvd_of_mod_eq_zero (beq_iff_eq.1 h7)
  have hpos : 1 ≤ a.walkers.toNat := by omega
  unfold shiftIf at h6
  split at h6
  · obtain ⟨g1, g2⟩ := shift_WF hf1 h6
    refine ⟨g1, g2.trans hf2, by simpa only [g2, hf2] using h3.1, ?_, hpos, hdvd⟩
    rw [(shift_fold_other h6).1]; exact mem_columns_of_get hw
  · cases h6
    exact ⟨hf1, hf2, by simpa only [hf2] using h3.1, mem_columns_of_get hw, hpos, hdvd⟩

omit [Field K] in
theorem get_ok_of_mem {f : Frame K} {p : String} (h : p ∈ f.columns) : ∃ x, f.get p = .ok x := by
  simp only [Frame.get]
  have : (f.cols.lookup p).isSome = true := (lookup_isSome_iff _ _).2 h
  cases hx : f.cols.lookup p with
  | none => rw [hx] at this; cases this
  | some x => exact ⟨x, rfl⟩

/-- Constructing a chain from a finite table that already has its weight column does not alter the
table and requires positive weights. -/
theorem make_toRaw [LinearOrder K] [IsStrictOrderedRing K] {a : Args K} {c : Chain K} {f : Frame K}
    (hf : f.WF) (ha : a.samples = f.toRaw) (hwc : a.weightColumn ∈ f.columns)
    (h : Chain.make a = .ok c) :
    (∃ w, f.get a.weightColumn = .ok w ∧ ∀ x ∈ w, 0 < x) ∧
    (setting a .shiftParams = false → c.samples = f) := by
  obtain ⟨col, raw, f0, f1, h1, h2, h3, h4, h5, h6, h7, h8, h9, h10, rfl⟩ := Chain.make_ok_iff.1 h
  have hwf : a.samples.WF := by rw [ha]; exact toRaw_WF.2 hf
  have hin : ColLabel.str a.weightColumn ∈ a.samples.cols.map Prod.fst := by
    rw [ha]
    simp only [Frame.columns, List.mem_map] at hwc
    obtain ⟨d, hd, hd'⟩ := hwc
    simp only [Frame.toRaw, List.map_map, List.mem_map]
    exact ⟨d, hd, by simp [hd']⟩
  obtain ⟨-, -, w, hw, -, hpos⟩ := make_frame hwf h4 h5
  have hraw : raw = f.toRaw := by
    rcases (addWeights_ok_iff hwf).1 h4 with ⟨-, hr, -⟩ | ⟨hn, -, -⟩
    · rw [hr, ha]
    · exact absurd hin hn
  rw [checkColumns_ok_iff, hraw] at h5
  have := toRaw_injective h5
  subst this
  refine ⟨⟨w, hw, hpos⟩, fun hs => ?_⟩
  rw [set_color_ne (by simp)] at h6
  change shiftIf (setting a .shiftParams) _ _ = _ at h6
  rw [hs, shiftIf, if_neg (by simp)] at h6
  cases h6
  rfl

end

end CC
