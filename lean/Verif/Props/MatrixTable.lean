import Verif.Props.Captions
import Verif.Props.Covariance
import Verif.Lemmas.Format

/-! # C15: covariance and correlation tables; C64: their contents -/

namespace CC
open Spec

/-- How a matrix entry is shown: after optional blanks, a numeral with two decimals that is off by at
most half a unit of the last digit, or the name of the special value. -/
def Spec.ShownEntry {K : Type} [Field K] [LinearOrder K] (r : Flt K) (cell : String) : Prop :=
  5 ≤ cell.length ∧ ∃ n t, cell.toList = List.replicate n ' ' ++ String.toList t ∧
    match r with
    | .fin x => ∃ v : K, Numeral t 2 v ∧ |v - x| ≤ 1 / 200
    | .posInf => t = "inf"
    | .negInf => t = "-inf"
    | .nan => t = "nan"

section
variable {K : Type} [Field K] [LinearOrder K] [IsStrictOrderedRing K] [FloorRing K]

theorem fixedWidth_shown (r : Flt K) : ShownEntry r (fixedWidth 5 2 r) := by
  have hlen : ∀ t : List Char, 5 ≤ (String.ofList (padLeft 5 t)).length := by
    intro t
    rw [← String.length_toList, String.toList_ofList, padLeft]
    simp only [List.length_append, List.length_replicate]
    omega
  cases r with
  | fin x =>
    refine ⟨hlen _, 5 - ((Signed.of x).text 2).toList.length, (Signed.of x).text 2,
      by rw [fixedWidth, String.toList_ofList, padLeft], _, text_numeral 2 _, ?_⟩
    have h := halfEven_spec (x := |x| * 10 ^ 2) (by positivity)
    have e : (Signed.of x).abs = |x| := rfl
    rw [e]
    have key : |(halfEven (|x| * 10 ^ 2) : K) / 10 ^ 2 - abs x| ≤ 1 / 200 := by
      rw [abs_le] at h ⊢
      constructor
      · rw [le_sub_iff_add_le, le_div_iff₀ (by norm_num)]; linarith [h.1]
      · rw [sub_le_iff_le_add, div_le_iff₀ (by norm_num)]; linarith [h.2]
    by_cases hx : x < 0
    · have : (Signed.of x).neg = true := by simp [Signed.of, hx]
      rw [this, if_pos rfl, abs_of_neg hx] at *
      rw [abs_sub_comm]
      convert key using 2
      ring
    · have : (Signed.of x).neg = false := by simp [Signed.of, hx]
      rw [this, if_neg (by simp), one_mul]
      rw [abs_of_nonneg (not_lt.1 hx)] at key ⊢
      exact key
  | posInf =>
    exact ⟨hlen _, 5 - "inf".toList.length, "inf", by rw [fixedWidth, String.toList_ofList, padLeft], rfl⟩
  | negInf =>
    exact ⟨hlen _, 5 - "-inf".toList.length, "-inf", by rw [fixedWidth, String.toList_ofList, padLeft], rfl⟩
  | nan =>
    exact ⟨hlen _, 5 - "nan".toList.length, "nan", by rw [fixedWidth, String.toList_ofList, padLeft], rfl⟩

/-- One line of the table: the padded label, then the entries. -/
def Spec.MatrixLine (width : Nat) (name : String) (row : List (Flt K)) (line : String) : Prop :=
  ∃ cells, List.Forall₂ ShownEntry row cells ∧
    line = "        " ++ String.ofList (List.replicate (width - name.length) ' ') ++ name ++
      String.join (cells.map (" & " ++ ·)) ++ " \\\\ \n"

theorem matrixLine_spec (width : Nat) (name : String) (row : List (Flt K)) :
    MatrixLine width name row (matrixLine width name row) := by
  refine ⟨row.map (fixedWidth 5 2), ?_, ?_⟩
  · rw [List.forall₂_map_right_iff]
    exact List.forall₂_same.2 fun r _ => fixedWidth_shown r
  · unfold matrixLine padLeft
    rw [List.map_map]
    congr 2
    rw [String.append_assoc]
    congr 1
    apply String.toList_injective
    simp only [String.toList_ofList, String.toList_append, String.length_toList]

/-- **C64**. The text of a covariance or correlation table with `n` parameters: `n + 1` columns are
declared, the header holds an empty cell and the labels, and the line of a parameter holds its label,
padded to the longest one, and its row of the matrix with two decimals. -/
theorem C64_matrix_table (labels : List (String × String)) (m : NamedMatrix K) (rows : List (List (Flt K)))
    (hm : m.array = .matrix rows) (hl : rows.length = m.columns.length) (caption label : String)
    (hc : '%' ∉ caption.toList) (hlb : '%' ∉ label.toList) (hne : m.columns ≠ []) :
    let names := m.columns.map fun c => (labels.lookup c).getD c
    ∃ (width : Nat) (lines : List String) (spec : String), (∀ n ∈ names, n.length ≤ width) ∧
      (∃ n ∈ names, n.length = width) ∧
      spec.toList = 'c' :: '|' :: List.replicate names.length 'c' ∧
      List.Forall₂ (fun nr line => MatrixLine width nr.1 nr.2 line) (names.zip rows) lines ∧
      lines.length = names.length ∧
      matrixTable labels m caption label = .ok (tableText caption label spec
        (String.intercalate " & " ("" :: names) ++ "\\\\ \n" ++ "        \\hline\n" ++ String.join lines ++
          "        \\hline\n")) := by
  intro names
  have hn : m.columns.map (getLabel labels) = names := rfl
  obtain ⟨a, as, has⟩ : ∃ a as, names = a :: as := by
    cases h : names with
    | nil => exact absurd (List.map_eq_nil_iff.1 h) hne
    | cons a as => exact ⟨a, as, rfl⟩
  have hmax : ∀ (l : List Nat) (x : Nat), (∀ y ∈ x :: l, y ≤ l.foldl max x) ∧ l.foldl max x ∈ x :: l := by
    intro l
    induction l with
    | nil => intro x; simp
    | cons b l ih =>
      intro x
      obtain ⟨h1, h2⟩ := ih (max x b)
      simp only [List.foldl_cons]
      refine ⟨fun y hy => ?_, ?_⟩
      · simp only [List.mem_cons, forall_eq_or_imp] at h1 hy
        rcases hy with rfl | rfl | hy
        · exact le_trans (le_max_left _ _) h1.1
        · exact le_trans (le_max_right _ _) h1.1
        · exact h1.2 _ hy
      · rcases List.mem_cons.1 h2 with h | h
        · rw [h]
          rcases max_choice x b with e | e <;> rw [e] <;> simp
        · simp [h]
  obtain ⟨h1, h2⟩ := hmax (as.map String.length) a.length
  refine ⟨(as.map String.length).foldl max a.length,
    List.zipWith (matrixLine ((as.map String.length).foldl max a.length)) names rows,
    "c|" ++ repeatChar 'c' names.length, ?_, ?_, ?_, ?_, ?_, ?_⟩
  · intro n hmem
    apply h1
    rw [has] at hmem
    rw [← List.map_cons]
    exact List.mem_map_of_mem hmem
  · rw [← List.map_cons, ← has] at h2
    exact List.mem_map.1 h2
  · simp [repeatChar]
  · rw [← List.map_uncurry_zip_eq_zipWith, List.forall₂_map_right_iff]
    exact List.forall₂_same.2 fun nr _ => matrixLine_spec _ _ _
  · rw [List.length_zipWith, hl]
    simp [names]
  · unfold matrixTable
    simp only [hn, hm]
    rw [has]
    simp only [List.map_cons]
    exact pyMod_frame _ _ _ _ hc hlb

end

/-- The rows of a covariance matrix match the columns. -/
theorem npCov_rows {X : List (List ℝ)} {w : List ℝ} {m : List (List (Flt ℝ))}
    (h : npCov X w = .ok (.matrix m)) : m.length = X.length ∧ ∀ r ∈ m, r.length = m.length := by
  unfold npCov at h
  split at h
  · rename_i hX
    cases h
    rw [hX]; exact ⟨rfl, by simp⟩
  · split at h
    · cases h
    · split at h
      · cases h
      · simp only at h
        split at h
        · cases h
        · cases h
          refine ⟨by rw [List.length_map, List.length_map], fun r hr => ?_⟩
          obtain ⟨x, -, rfl⟩ := List.mem_map.1 hr
          simp only [List.length_map]

theorem getMany_length {f : Frame ℝ} {cols : List String} {X : List (List ℝ)}
    (h : f.getMany cols = .ok X) : X.length = cols.length := by
  have : (f.getMany cols) = cols.mapM f.get := by
    clear h
    induction cols with
    | nil => rfl
    | cons c cs ih => simp only [Frame.getMany, List.mapM_cons, ih]
  rw [this, mapM_ok_iff] at h
  exact h.length_eq.symm

theorem getCovariance_rows {c : Chain ℝ} {cols cols' : List String} {m : List (List (Flt ℝ))}
    (h : c.getCovariance (some cols) = .ok ⟨cols', .matrix m⟩) :
    m.length = cols.length ∧ ∀ r ∈ m, r.length = m.length := by
  obtain ⟨X, hX, h⟩ := (bind_ok_iff ..).1 h
  obtain ⟨w, hw, h⟩ := (bind_ok_iff ..).1 h
  obtain ⟨m', hm, h⟩ := (bind_ok_iff ..).1 h
  have := Except.ok.inj h
  simp only [NamedMatrix.mk.injEq] at this
  obtain ⟨-, rfl⟩ := this
  obtain ⟨h1, h2⟩ := npCov_rows hm
  exact ⟨by rw [h1, getMany_length hX]; rfl, h2⟩

theorem diagOf_length {α : Type} {m : List (List α)} (h : ∀ r ∈ m, r.length = m.length) :
    (diagOf m).length = m.length := by
  have key : ∀ (l : List (List α)) (k : Nat), (∀ r ∈ l, k + l.length ≤ r.length) →
      ((l.zipIdx k).filterMap fun ri => ri.1[ri.2]?).length = l.length := by
    intro l
    induction l with
    | nil => intro k _; rfl
    | cons r l ih =>
      intro k hk
      have h1 := hk r (by simp)
      rw [List.length_cons] at h1
      have hf : (fun ri : List α × Nat => ri.1[ri.2]?) (r, k) = some r[k] := List.getElem?_eq_getElem _
      rw [List.zipIdx_cons, List.filterMap_cons_some (f := fun ri : List α × Nat => ri.1[ri.2]?) hf, List.length_cons, List.length_cons, ih (k + 1)]
      intro r' hr'
      have := hk r' (List.mem_cons_of_mem _ hr')
      rw [List.length_cons] at this
      omega
  exact key m 0 fun r hr => by rw [h r hr]; omega

/-- **C64** (which chain). A chain given by name is the registered one, unknown names fail an assertion; an object is used as
is; without a chain there must be exactly one registered, otherwise an assertion fails: no chain is chosen silently. -/
theorem C64_chain {K : Type} (hp : Heap K) (s : Consumer K) (hreg : ∀ e ∈ s.chains, e.2 < hp.length) :
    (∀ n r, s.chains.lookup n = some r → ∃ c, hp[r]? = some c ∧ tableChain hp s (.name n) = .ok c) ∧
    (∀ n, n ∉ s.chains.map Prod.fst → tableChain hp s (.name n) = .error .assertion) ∧
    (∀ c, tableChain hp s (.obj c) = .ok c) ∧
    (∀ e, s.chains = [e] → ∃ c, hp[e.2]? = some c ∧ tableChain hp s .none = .ok c) ∧
    (s.chains.length ≠ 1 → tableChain hp s .none = .error .assertion) := by
  refine ⟨fun n r hr => ?_, fun n hn => ?_, fun c => rfl, fun e he => ?_, fun hl => ?_⟩
  · have hlt := hreg _ (lookup_mem hr)
    refine ⟨hp[r], List.getElem?_eq_getElem hlt, ?_⟩
    simp only [tableChain, Consumer.getChain, hr, bind, Except.bind, List.getElem?_eq_getElem hlt]
    rfl
  · have : s.chains.lookup n = none := by
      cases hx : s.chains.lookup n with
      | none => rfl
      | some r => exact absurd ((lookup_isSome_iff s.chains n).1 (by rw [hx]; rfl)) hn
    simp only [tableChain, Consumer.getChain, this, bind, Except.bind]
  · have hlt := hreg e (by rw [he]; simp)
    exact ⟨hp[e.2], List.getElem?_eq_getElem hlt, by simp only [tableChain, he, List.getElem?_eq_getElem hlt]⟩
  · cases hc : s.chains with
    | nil => simp only [tableChain, hc]
    | cons e l =>
      cases l with
      | nil => rw [hc] at hl; exact absurd rfl hl
      | cons e' l => simp only [tableChain, hc]

/-- **C64** (what is shown). Both tables show the matrices of `get_covariance` and `get_correlation`, and
`C64_matrix_table` describes their text. -/
theorem C64_tables (hp : Heap ℝ) (s : Consumer ℝ) (arg : ChainArg ℝ) (c : Chain ℝ)
    (harg : tableChain hp s arg = .ok c) (labels : List (String × String)) (cols : List String)
    (caption label text : String) :
    (covarianceTable hp s labels arg (some cols) caption label = .ok text →
      ∃ rows, c.getCovariance (some cols) = .ok ⟨cols, .matrix rows⟩ ∧ rows.length = cols.length ∧
        matrixTable labels ⟨cols, .matrix rows⟩ caption label = .ok text) ∧
    (correlationTable hp s labels arg (some cols) caption label = .ok text →
      ∃ rows, c.getCorrelation (some cols) = .ok ⟨cols, .matrix rows⟩ ∧ rows.length = cols.length ∧
        matrixTable labels ⟨cols, .matrix rows⟩ caption label = .ok text) := by
  constructor
  · intro h
    obtain ⟨c', hc', h1⟩ := (bind_ok_iff ..).1 h
    obtain rfl : c = c' := Except.ok.inj (harg.symm.trans hc')
    obtain ⟨m, hm, h2⟩ := (bind_ok_iff ..).1 h1
    clear h h1
    have hc : m.columns = cols := by
      obtain ⟨X, -, hm⟩ := (bind_ok_iff ..).1 hm
      obtain ⟨w, -, hm⟩ := (bind_ok_iff ..).1 hm
      obtain ⟨y, -, hm⟩ := (bind_ok_iff ..).1 hm
      rw [← Except.ok.inj hm]; rfl
    obtain ⟨cols', arr⟩ := m
    subst hc
    cases arr with
    | matrix rows => exact ⟨rows, hm, (getCovariance_rows hm).1, h2⟩
    | scalar v =>
      unfold matrixTable at h2
      simp only at h2
      split at h2 <;> cases h2
  · intro h
    obtain ⟨c', hc', h1⟩ := (bind_ok_iff ..).1 h
    obtain rfl : c = c' := Except.ok.inj (harg.symm.trans hc')
    obtain ⟨m, hm, h2⟩ := (bind_ok_iff ..).1 h1
    clear h h1
    have hm' := hm
    obtain ⟨cv, hcv, hm⟩ := (bind_ok_iff ..).1 hm
    have hcc : cv.columns = cols := by
      obtain ⟨X, -, hm⟩ := (bind_ok_iff ..).1 hcv
      obtain ⟨w, -, hm⟩ := (bind_ok_iff ..).1 hm
      obtain ⟨y, -, hm⟩ := (bind_ok_iff ..).1 hm
      rw [← Except.ok.inj hm]; rfl
    obtain ⟨cols', arr⟩ := cv
    simp only at hcc
    subst hcc
    cases arr with
    | scalar v => cases hm
    | matrix rows =>
      obtain ⟨hr, hsq⟩ := getCovariance_rows hcv
      obtain rfl := Except.ok.inj hm
      refine ⟨_, hm', ?_, h2⟩
      simp only [List.length_zipWith, List.length_map, diagOf_length hsq, min_self]
      exact hr

/-- **C15** (tables, what holds). The covariance and correlation tables succeed for two or more existing
columns (captions without percent signs, see C44). What is missing from the full property is a single
column, see `C15_tables_fail`. -/
theorem C15_tables_succeed_partial (a : Args ℝ) (c : Chain ℝ) (hwf : a.samples.WF)
    (hshift : setting a .shiftParams = false) (h : Chain.make a = .ok c)
    (hp : Heap ℝ) (s : Consumer ℝ) (arg : ChainArg ℝ) (harg : tableChain hp s arg = .ok c)
    (labels : List (String × String))
    (cols : List String) (hcols : ∀ p ∈ cols, p ∈ c.samples.columns) (hl : 2 ≤ cols.length)
    (caption label : String) (hc : '%' ∉ caption.toList) (hlb : '%' ∉ label.toList) :
    (∃ text, covarianceTable hp s labels arg (some cols) caption label = .ok text) ∧
      ∃ text, correlationTable hp s labels arg (some cols) caption label = .ok text := by
  obtain ⟨⟨m, hm⟩, m', hm'⟩ := C15_correlation_succeeds_partial a c hwf hshift h cols hcols (by omega)
  have key : ∀ rows : List (List (Flt ℝ)), ∃ text,
      matrixTable labels ⟨cols, .matrix rows⟩ caption label = .ok text := by
    intro rows
    unfold matrixTable
    simp only
    cases cols with
    | nil => simp at hl
    | cons x xs =>
      simp only [List.map_cons]
      rw [pyMod_frame _ _ _ _ hc hlb]
      exact ⟨_, rfl⟩
  constructor
  · simp only [covarianceTable, harg, hm', bind, Except.bind]
    exact key _
  · simp only [correlationTable, harg, hm, bind, Except.bind]
    exact key _

/-- **C15** (tables, violation). For every chain and every single existing column both tables raise;
they raise for the empty list of columns as well. -/
theorem C15_tables_fail (a : Args ℝ) (c : Chain ℝ) (hwf : a.samples.WF)
    (hshift : setting a .shiftParams = false) (h : Chain.make a = .ok c)
    (hp : Heap ℝ) (s : Consumer ℝ) (arg : ChainArg ℝ) (harg : tableChain hp s arg = .ok c)
    (labels : List (String × String)) (caption label : String) :
    (∀ p ∈ c.samples.columns,
      covarianceTable hp s labels arg (some [p]) caption label = .error .type ∧
      correlationTable hp s labels arg (some [p]) caption label = .error .value) ∧
    covarianceTable hp s labels arg (some []) caption label = .error .value ∧
    correlationTable hp s labels arg (some []) caption label = .error .value := by
  refine ⟨fun p hpc => ?_, ?_⟩
  · obtain ⟨h1, v, h2⟩ := C15_single_column_fails a c hwf hshift h p hpc
    constructor
    · simp only [covarianceTable, harg, h2, bind, Except.bind, matrixTable, List.map_cons, List.map_nil]
    · simp only [correlationTable, harg, h1, bind, Except.bind]
  · obtain ⟨⟨m, hm⟩, m', hm'⟩ := C15_correlation_succeeds_partial a c hwf hshift h [] (by simp) (by simp)
    constructor
    · simp only [covarianceTable, harg, hm', bind, Except.bind, matrixTable, List.map_nil]
    · simp only [correlationTable, harg, hm, bind, Except.bind, matrixTable, List.map_nil]

/-- A covariance table of two parameters, as text. -/
example : matrixTable (K := ℚ) [("b", "$b$")] ⟨["a", "b"], .matrix [[.fin 1, .fin (-1 / 8)], [.fin (-1 / 8), .nan]]⟩
    "cap" "lab" = .ok (tableText "cap" "lab" "c|cc"
      (" & a & $b$\\\\ \n        \\hline\n          a &  1.00 & -0.12 \\\\ \n" ++
        "        $b$ & -0.12 &   nan \\\\ \n        \\hline\n")) := by
  decide +kernel

/-- The tables of a chain with two data columns. -/
example : ∃ (a : Args ℝ) (c : Chain ℝ), a.samples.WF ∧ setting a .shiftParams = false ∧
    Chain.make a = .ok c ∧ (∀ p ∈ ["a", "b"], p ∈ c.samples.columns) ∧
    tableChain [c] { chains := [("demo", 0)] } (.name "demo") = .ok c ∧
    tableChain [c] { chains := [("demo", 0)] } .none = .ok c := by
  let f : Frame ℝ := { index := [.int 0, .int 1],
                       cols := [("a", [1, 2]), ("b", [3, 5]), ("weight", [1, 2])] }
  have hf : f.WF := ⟨by simp [f], by simp [f]⟩
  obtain ⟨c, hc, hcs, -⟩ := plain_chain f hf (by simp [f]) (w := [1, 2]) rfl (by simp) "demo"
  refine ⟨_, c, toRaw_WF.2 hf, rfl, hc, ?_, rfl, rfl⟩
  rw [hcs]; simp [f, Frame.columns]

end CC
