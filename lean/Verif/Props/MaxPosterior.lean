import Verif.Props.Divide

/-! # C12: the maximum posterior point -/

namespace CC
open Spec

/-- `argmax` is a position of a maximal entry. -/
theorem argmax_spec {K : Type} [LinearOrder K] (l : List K) (i : Nat) (h : argmax l = some i) :
    ∃ hi : i < l.length, (∀ x ∈ l, x ≤ l[i]) ∧ ∀ j (hj : j < i), l[j] < l[i] := by
  induction l generalizing i with
  | nil => simp [argmax] at h
  | cons x xs ih =>
    cases hx : argmax xs with
    | none =>
      have hnil : xs = [] := by
        cases xs with
        | nil => rfl
        | cons y ys =>
          simp only [argmax] at hx
          split at hx
          · cases hx
          · split at hx
            · split at hx <;> cases hx
            · cases hx
      subst hnil
      simp [argmax] at h
      subst h
      exact ⟨by simp, by simp, by simp⟩
    | some j =>
      obtain ⟨hj, hmax, hfirst⟩ := ih j hx
      have hget : xs[j]? = some xs[j] := List.getElem?_eq_getElem hj
      simp only [argmax, hx, hget] at h
      split at h
      · rename_i hlt
        cases h
        refine ⟨by simpa using hj, ?_, ?_⟩
        · intro y hy
          simp only [List.mem_cons] at hy
          rcases hy with rfl | hy
          · simpa using hlt.le
          · simpa using hmax y hy
        · intro k hk
          cases k with
          | zero => simpa using hlt
          | succ k => simpa using hfirst k (by omega)
      · rename_i hge
        cases h
        refine ⟨by simp, ?_, by simp⟩
        intro y hy
        simp only [List.mem_cons] at hy
        rcases hy with rfl | hy
        · simp
        · exact le_trans (hmax y hy) (by simpa using hge)

theorem argmax_isSome {K : Type} [LinearOrder K] {l : List K} (h : l ≠ []) :
    ∃ i, argmax l = some i := by
  cases l with
  | nil => exact absurd rfl h
  | cons x xs =>
    simp only [argmax]
    split
    · exact ⟨_, rfl⟩
    · split
      · split <;> exact ⟨_, rfl⟩
      · exact ⟨_, rfl⟩

section
variable {K : Type}

theorem row_eq {f : Frame K} (hf : f.WF) {i : Nat} (hi : i < f.index.length) (p : String) :
    (f.row i).lookup p = (f.cols.lookup p).bind fun v => v[i]? := by
  have hl := hf.2
  simp only [Frame.row]
  generalize f.cols = d at hl
  induction d with
  | nil => rfl
  | cons e d ih =>
    obtain ⟨a, v⟩ := e
    have hv : v[i]? = some (v[i]'(by rw [hl (a, v) (by simp)]; exact hi)) :=
      List.getElem?_eq_getElem _
    rw [List.filterMap_cons]
    simp only [hv, Option.map_some, List.lookup_cons]
    by_cases hp : p = a
    · subst hp; simp [hv]
    · have : (p == a) = false := by simpa using hp
      simp only [this]
      exact ih fun c hc => hl c (List.mem_cons_of_mem _ hc)

theorem row_keys {f : Frame K} (hf : f.WF) {i : Nat} (hi : i < f.index.length) :
    (f.row i).map Prod.fst = f.columns := by
  have hl := hf.2
  simp only [Frame.row, Frame.columns]
  generalize f.cols = d at hl
  induction d with
  | nil => rfl
  | cons e d ih =>
    obtain ⟨a, v⟩ := e
    have hv : v[i]? = some (v[i]'(by rw [hl (a, v) (by simp)]; exact hi)) :=
      List.getElem?_eq_getElem _
    rw [List.filterMap_cons]
    simp only [hv, Option.map_some, List.map_cons]
    rw [ih fun c hc => hl c (List.mem_cons_of_mem _ hc)]

theorem row_mem {f : Frame K} (hf : f.WF) {i : Nat} {p : String} {x : K}
    (h : (p, x) ∈ f.row i) : ∃ v, f.get p = .ok v ∧ v[i]? = some x := by
  simp only [Frame.row, List.mem_filterMap, Option.map_eq_some_iff, Prod.mk.injEq] at h
  obtain ⟨c, hc, y, hy, rfl, rfl⟩ := h
  exact ⟨c.2, get_of_mem hf.1 hc, hy⟩

variable [LinearOrder K]

/-- Where the code looks: the unique row labelled with the *position* `i` of the first maximum. -/
theorem maxPosterior_at {c : Chain K} (hf : c.samples.WF) {p : List K}
    (hp : c.samples.cols.lookup c.posteriorColumn = some p) {i j : Nat}
    (hi : argmax p = some i) (hj : c.samples.positions (.int i) = [j]) :
    ∃ m, c.maxPosteriorPoint = .ok (some m) ∧ p[j]? = some m.logPosterior ∧
      m.coordinate.map Prod.fst = c.plottingColumns ∧
      ∀ n x, (n, x) ∈ m.coordinate → ∃ v, c.samples.get n = .ok v ∧ v[j]? = some x := by
  have hjlt : j < c.samples.index.length := by
    have : j ∈ c.samples.positions (.int i) := by rw [hj]; simp
    simp only [Frame.positions, List.mem_filter, List.mem_range] at this
    exact this.1
  have hpl : p.length = c.samples.index.length := hf.2 _ (lookup_mem hp)
  have hrow : (c.samples.row j).lookup c.posteriorColumn = some (p[j]'(hpl ▸ hjlt)) := by
    rw [row_eq hf hjlt, hp]
    exact List.getElem?_eq_getElem _
  refine ⟨⟨p[j]'(hpl ▸ hjlt), ((c.samples.row j).filter fun e => e.1 ≠ c.posteriorColumn).filter
    fun e => e.1 ∈ c.plottingColumns⟩, ?_, ?_, ?_, ?_⟩
  · simp only [Chain.maxPosteriorPoint, Chain.logPosterior, hp, hi, hj, hrow]
  · exact List.getElem?_eq_getElem _
  · simp only
    have hkeys := row_keys hf hjlt
    have hfil : ∀ (d : List (String × K)) (P : String → Bool),
        (d.filter fun e => P e.1).map Prod.fst = (d.map Prod.fst).filter P := by
      intro d P
      rw [List.filter_map]; rfl
    have h1 := hfil ((c.samples.row j).filter fun e => decide (e.1 ≠ c.posteriorColumn))
      (fun n => decide (n ∈ c.plottingColumns))
    have h2 := hfil (c.samples.row j) (fun n => decide (n ≠ c.posteriorColumn))
    rw [h1, h2, hkeys, List.filter_filter]
    have hsub : c.plottingColumns.Sublist c.samples.columns :=
      (C09_plotting_columns c "").1.trans (C09_data_columns c).1
    have hnp : ∀ n ∈ c.plottingColumns, n ≠ c.posteriorColumn := fun n hn =>
      (((C09_data_columns c).2.2 n).1 ((C09_plotting_columns c n).1.subset hn)).2.2.1
    have hnd : c.samples.columns.Nodup := hf.1
    clear h1 h2 hkeys hrow
    generalize c.plottingColumns = L at hsub hnp
    generalize c.samples.columns = M at hsub hnd
    have heq : (M.filter fun a => decide (a ∈ L) && decide (a ≠ c.posteriorColumn))
        = M.filter fun a => decide (a ∈ L) := by
      apply List.filter_congr
      intro a _
      by_cases ha : a ∈ L
      · simp [ha, hnp a ha]
      · simp [ha]
    rw [heq]
    clear heq hnp
    induction hsub with
    | slnil => rfl
    | @cons l₁ l₂ a h ih =>
      rw [List.nodup_cons] at hnd
      have ha : a ∉ l₁ := fun hm => hnd.1 (h.subset hm)
      rw [List.filter_cons_of_neg (by simpa using ha)]
      exact ih hnd.2
    | @cons_cons l₁ l₂ a h ih =>
      rw [List.nodup_cons] at hnd
      rw [List.filter_cons_of_pos (by simp)]
      congr 1
      rw [← ih hnd.2]
      apply List.filter_congr
      intro b hb
      have : b ≠ a := fun he => hnd.1 (he ▸ hb)
      simp only [List.mem_cons, this, false_or]
      rw [ih hnd.2]
  · intro n x hx
    have := List.mem_of_mem_filter (List.mem_of_mem_filter hx)
    exact row_mem hf this

/-- Default row labels `0, …, n-1` (what `pd.DataFrame(data)` produces). -/
def Spec.DefaultIndex (f : Frame K) : Prop :=
  f.index = (List.range f.index.length).map fun i : Nat => Label.int i

omit [LinearOrder K] in
/-- With default labels, label `i` is found exactly at position `i`. -/
theorem positions_default {f : Frame K} (h : DefaultIndex f) {i : Nat} (hi : i < f.index.length) :
    f.positions (.int i) = [i] := by
  have hget : ∀ j, j < f.index.length → f.index[j]? = some (Label.int j) := by
    intro j hj
    rw [h]
    simp [hj]
  have : f.positions (.int i) = (List.range f.index.length).filter fun j => decide (j = i) := by
    apply List.filter_congr
    intro j hj
    rw [hget j (List.mem_range.1 hj)]
    simp
  rw [this]
  have key : ∀ n, i < n → (List.range n).filter (fun j => decide (j = i)) = [i] := by
    intro n
    induction n with
    | zero => omega
    | succ n ih =>
      intro hin
      rw [List.range_succ, List.filter_append]
      by_cases hn : n = i
      · subst hn
        have : (List.range n).filter (fun j => decide (j = n)) = [] := by
          rw [List.filter_eq_nil_iff]
          intro a ha
          have := List.mem_range.1 ha
          simp; omega
        simp [this]
      · rw [ih (by omega)]
        simp [hn]
  exact key _ hi

/-- **C12** (no posterior). The result is `None` exactly when the chain has no posterior column. -/
theorem C12_none_iff (c : Chain K) :
    c.maxPosteriorPoint = .ok none ↔ c.posteriorColumn ∉ c.samples.columns := by
  rw [Frame.columns, ← lookup_isSome_iff]
  simp only [Chain.maxPosteriorPoint, Chain.logPosterior]
  cases h : c.samples.cols.lookup c.posteriorColumn with
  | none => simp
  | some p =>
    simp only [Option.isSome_some, not_true_eq_false, iff_false]
    split
    · simp
    · split
      · simp
      · split <;> simp
      · simp

variable [Field K] [IsStrictOrderedRing K]

/-- **C12, partial.** For an accepted chain whose rows carry the default labels `0, …, n-1` and which
has a posterior column `p`, the result is a sample (row `j`) of maximal posterior: its log
posterior is the maximum of `p`, and its coordinate lists exactly the plotting columns, in order,
with the values of row `j`. Missing: tables with other row labels, where it is false
(`C12_violated_wrong_point`, `C12_divided_walkers_fail`). -/
theorem C12_max_posterior_partial (a : Args K) (c : Chain K) (hwf : a.samples.WF)
    (h : Chain.make a = .ok c) (hidx : DefaultIndex c.samples) (p : List K)
    (hp : c.samples.get c.posteriorColumn = .ok p) :
    ∃ (m : Chain.MaxPosterior K) (j : Nat), c.maxPosteriorPoint = .ok (some m) ∧ p[j]? = some m.logPosterior ∧
      (∀ x ∈ p, x ≤ m.logPosterior) ∧
      m.coordinate.map Prod.fst = c.plottingColumns ∧
      ∀ n x, (n, x) ∈ m.coordinate → ∃ v, c.samples.get n = .ok v ∧ v[j]? = some x := by
  obtain ⟨w1, -, w3, -⟩ := make_WF hwf h
  have hp' : c.samples.cols.lookup c.posteriorColumn = some p :=
    lookup_eq_some_of_mem w1.1 (get_mem hp)
  have hpl : p.length = c.samples.index.length := w1.2 _ (get_mem hp)
  have hpne : p ≠ [] := by
    intro h0
    rw [h0] at hpl
    exact w3 (List.length_eq_zero_iff.1 hpl.symm)
  obtain ⟨i, hi⟩ := argmax_isSome hpne
  obtain ⟨hilt, hmax, -⟩ := argmax_spec p i hi
  obtain ⟨m, hm1, hm2, hm3, hm4⟩ := maxPosterior_at w1 hp' hi
    (positions_default hidx (hpl ▸ hilt))
  refine ⟨m, i, hm1, hm2, ?_, hm3, hm4⟩
  rw [List.getElem?_eq_getElem hilt, Option.some.injEq] at hm2
  rw [← hm2]
  exact hmax

end

/-- A two-row table with row labels `1, 0` (for example after sorting). -/
def maxWitness : Args ℚ :=
  { samples := { index := [.int 1, .int 0], cols := [(.str "a", [.fin 5, .fin 7]),
      (.str "log_posterior", [.fin 0, .fin (-10)])] }
    name := "m" }

def maxWitnessFrame : Frame ℚ :=
  { index := [.int 1, .int 0], cols := [("a", [5, 7]), ("log_posterior", [0, -10]),
      ("weight", [1, 1])] }

theorem maxWitness_make : ∃ c, Chain.make maxWitness = .ok c ∧ c.samples = maxWitnessFrame ∧
    c.posteriorColumn = "log_posterior" ∧ c.weightColumn = "weight" ∧ c.cfg .plotCloud = false := by
  refine ⟨_, Chain.make_ok_iff.2 ⟨none, _, maxWitnessFrame, maxWitnessFrame,
    by decide +kernel, by decide +kernel, rfl, rfl, by decide +kernel,
    by decide +kernel, by decide +kernel, by decide +kernel, by decide +kernel, by decide +kernel,
    rfl⟩, rfl, rfl, rfl, by decide +kernel⟩

/-- **C12, violated.** The table is accepted, its maximum log posterior is `0` (at `a = 5`), but the
reported maximum posterior point has log posterior `-10`. -/
theorem C12_violated_wrong_point : ∃ c m, Chain.make maxWitness = .ok c ∧
    c.samples.get c.posteriorColumn = .ok [0, -10] ∧ c.maxPosteriorPoint = .ok (some m) ∧
    m.logPosterior = -10 ∧ ∃ x ∈ ([0, -10] : List ℚ), m.logPosterior < x := by
  obtain ⟨c, h1, h2, h3, h4, h5⟩ := maxWitness_make
  have hwf : maxWitnessFrame.WF := ⟨by decide, by simp [maxWitnessFrame]⟩
  have harg : argmax ([0, -10] : List ℚ) = some 0 := by decide +kernel
  have hpos : maxWitnessFrame.positions (.int (0 : Nat)) = [1] := by decide +kernel
  have hlk : c.samples.cols.lookup c.posteriorColumn = some [0, -10] := by
    rw [h2, h3]; decide +kernel
  obtain ⟨m, hm1, hm2, -, -⟩ := maxPosterior_at (c := c) (by rw [h2]; exact hwf) hlk harg
    (by rw [h2]; exact hpos)
  have hlp : m.logPosterior = -10 := by simpa using hm2.symm
  refine ⟨c, m, h1, ?_, hm1, hlp, 0, by simp, by rw [hlp]; decide +kernel⟩
  rw [h2, h3]; decide +kernel

section
variable {K : Type} [Field K] [LinearOrder K] [IsStrictOrderedRing K]

/-- **C12, violated** (for every divided chain). If a chain with default row labels, a posterior
column and no `shift_params` is divided, then `get_max_posterior_point` of every walker after the
first raises KeyError. -/
theorem C12_divided_walkers_fail (a : Args K) (c : Chain K) (hwf : a.samples.WF)
    (hshift : setting a .shiftParams = false) (h : Chain.make a = .ok c)
    (hidx : DefaultIndex c.samples) (hp : c.posteriorColumn ∈ c.samples.columns)
    (cs : List (Chain K)) (hcs : c.divide = .ok cs) (i : Nat) (hi0 : 0 < i) (hi : i < cs.length) :
    cs[i].maxPosteriorPoint = .error .key := by
  obtain ⟨w1, -, w3, -, -, w6⟩ := make_WF hwf h
  obtain ⟨-, -, -, hf⟩ := divide_ok_iff.1 hcs
  generalize hn : c.samples.index.length / c.walkers = n at hf
  have hlen : c.walkers * n = c.samples.index.length := by
    rw [← hn]; exact Nat.mul_div_cancel' w6
  have hl := hf.length_eq
  rw [List.length_range] at hl
  have hmk : Chain.make (c.walkerArgs i (c.samples.rows (i * n) n)) = .ok cs[i] := by
    have := (List.forall₂_iff_get.1 hf).2 i (by simpa [hl] using hi) hi
    simpa using this
  obtain ⟨b1, b2⟩ := block_make hwf hshift h hmk
  obtain ⟨p, hp⟩ := get_ok_of_mem hp
  have hlk : cs[i].samples.cols.lookup cs[i].posteriorColumn = some ((p.drop (i * n)).take n) := by
    have hg : cs[i].samples.get cs[i].posteriorColumn = .ok ((p.drop (i * n)).take n) := by
      rw [b1, b2.posteriorColumn, rows_get, hp]; rfl
    refine lookup_eq_some_of_mem ?_ (get_mem hg)
    rw [b1]; exact (rows_WF w1 _ _).1
  have hplen : p.length = c.walkers * n := by rw [hlen]; exact w1.2 _ (get_mem hp)
  have hin : i * n + n ≤ c.walkers * n := by
    have := Nat.mul_le_mul_right n (Nat.succ_le_of_lt (hl ▸ hi))
    rwa [Nat.succ_mul] at this
  have hnpos : 0 < n := by
    rcases Nat.eq_zero_or_pos n with h0 | h0
    · rw [h0, Nat.mul_zero] at hlen
      exact absurd (List.length_eq_zero_iff.1 hlen.symm) w3
    · exact h0
  have hblen : ((p.drop (i * n)).take n).length = n := by
    rw [List.length_take, List.length_drop]; omega
  obtain ⟨k, hk⟩ := argmax_isSome (l := (p.drop (i * n)).take n) (by
    intro h0; rw [h0] at hblen; simp at hblen; omega)
  obtain ⟨hklt, -⟩ := argmax_spec _ k hk
  rw [hblen] at hklt
  have hpos : cs[i].samples.positions (.int k) = [] := by
    rw [b1, Frame.positions, List.filter_eq_nil_iff]
    intro j hj hcon
    have hcon' : (c.samples.rows (i * n) n).index[j]? = some (Label.int k) := by simpa using hcon
    have hj' : j < n := by
      have := List.mem_range.1 hj
      simp only [Frame.rows, List.length_take] at this
      omega
    simp only [Frame.rows] at hcon'
    rw [List.getElem?_take_of_lt hj', List.getElem?_drop, hidx] at hcon'
    simp only [List.getElem?_map, Option.map_eq_some_iff, Label.int.injEq, Nat.cast_inj] at hcon'
    obtain ⟨q, hq, rfl⟩ := hcon'
    obtain ⟨hq1, hq2⟩ := List.getElem?_eq_some_iff.1 hq
    rw [List.getElem_range] at hq2
    have : n ≤ i * n := Nat.le_mul_of_pos_left n hi0
    omega
  simp only [Chain.maxPosteriorPoint, Chain.logPosterior, hlk, hk, hpos]

end

/-- Four rows with a posterior column and two walkers. -/
def maxDemo : Args ℚ :=
  { samples := { index := [.int 0, .int 1, .int 2, .int 3], cols := [(.str "a", [.fin 5, .fin 7, .fin 1, .fin 2]),
      (.str "log_posterior", [.fin 0, .fin (-10), .fin 3, .fin 3])] }
    name := "m", walkers := 2 }

/-- The hypotheses of `C12_max_posterior_partial` and `C12_divided_walkers_fail` are met. -/
example : maxDemo.samples.WF ∧ setting maxDemo .shiftParams = false ∧
    ∃ c cs, Chain.make maxDemo = .ok c ∧ DefaultIndex c.samples ∧
      c.samples.get c.posteriorColumn = .ok [0, -10, 3, 3] ∧ c.divide = .ok cs ∧ 1 < cs.length := by
  have hwf : maxDemo.samples.WF := ⟨by decide, by simp [maxDemo]⟩
  have hs : setting maxDemo .shiftParams = false := by decide +kernel
  let f : Frame ℚ := { index := [.int 0, .int 1, .int 2, .int 3], cols := [("a", [5, 7, 1, 2]),
      ("log_posterior", [0, -10, 3, 3]), ("weight", [1, 1, 1, 1])] }
  have hm := (Chain.make_ok_iff (a := maxDemo)).2 ⟨none, _, f, f,
    by decide +kernel, by decide +kernel, rfl, rfl, by decide +kernel,
    by decide +kernel, by decide +kernel, by decide +kernel, by decide +kernel, by decide +kernel,
    rfl⟩
  obtain ⟨cs, h1, h2, -⟩ := C10_divide_lossless maxDemo _ hwf hs hm (by decide) rfl
  refine ⟨hwf, hs, _, cs, hm, by simp [DefaultIndex, List.range, List.range.loop, f], by decide +kernel, h1, ?_⟩
  rw [h2]; decide

end CC
