import Verif.Model.LatexTable
import Verif.Model.CompTable
import Verif.Lemmas.Except

/-! # C44: captions and labels of LaTeX tables -/

namespace CC

/-- The text of a LaTeX table with the given caption, label, column specification and body. -/
def Spec.tableText (caption label columns body : String) : String :=
  "\\begin{table}\n    \\centering\n    \\caption{" ++ caption ++ "}\n    \\label{" ++ label ++
    "}\n    \\begin{tabular}{" ++ columns ++ "}\n        " ++ body ++
    "    \\end{tabular}\n\\end{table}"

theorem pyModChars_char (c : Char) (cs : List Char) (as : List String) (h : c ≠ '%') :
    pyModChars (c :: cs) as = (pyModChars cs as).map (c :: ·) := by
  rw [pyModChars.eq_def]
  split
  · simp_all
  · simp_all
  · simp_all
  · simp_all
  · simp_all
  · rename_i h1 h2
    obtain ⟨rfl, rfl⟩ := List.cons.inj h1
    cases pyModChars cs _ <;> rfl

theorem pyModChars_pct (rest : List Char) (as : List String) :
    pyModChars ('%' :: '%' :: rest) as = (pyModChars rest as).map ('%' :: ·) := by
  rw [pyModChars]
  cases pyModChars rest as <;> rfl

/-- Placeholders take the arguments. -/
theorem pyModChars_arg (rest : List Char) (a : String) (as : List String) :
    pyModChars ('%' :: 's' :: rest) (a :: as) = (pyModChars rest as).map (a.toList ++ ·) := by
  rw [pyModChars]
  cases pyModChars rest as <;> rfl

/-- Characters other than a percent sign are copied. -/
theorem pyModChars_copy (l rest : List Char) (as : List String) (h : '%' ∉ l) :
    pyModChars (l ++ rest) as = (pyModChars rest as).map (l ++ ·) := by
  induction l with
  | nil => rw [List.nil_append]; cases pyModChars rest as <;> rfl
  | cons c l ih =>
    have hc : c ≠ '%' := fun e => h (e ▸ List.mem_cons_self)
    rw [List.cons_append, pyModChars_char _ _ _ hc, ih (fun hm => h (List.mem_cons_of_mem _ hm))]
    cases pyModChars rest as <;> rfl

theorem frame_tail : ("}\n    \\begin{tabular}{%s}\n        %s    \\end{tabular}\n\\end{table}" : String).toList =
    "}\n    \\begin{tabular}{".toList ++ ('%' :: 's' :: ("}\n        ".toList ++
      ('%' :: 's' :: ("    \\end{tabular}\n\\end{table}".toList ++ [])))) := by
  decide

theorem pyMod_frame (caption label columns body : String) (hc : '%' ∉ caption.toList)
    (hl : '%' ∉ label.toList) :
    pyMod (latexFrame caption label) [columns, body] =
      .ok (Spec.tableText caption label columns body) := by
  unfold pyMod latexFrame
  simp only [String.toList_append]
  rw [frame_tail]
  generalize hA : ("\\begin{table}\n    \\centering\n    \\caption{" : String) = A
  generalize hB : ("}\n    \\label{" : String) = B
  generalize hC : ("}\n    \\begin{tabular}{" : String) = C
  generalize hD : ("}\n        " : String) = D
  generalize hE : ("    \\end{tabular}\n\\end{table}" : String) = E
  have a : '%' ∉ A.toList := by rw [← hA]; decide
  have b : '%' ∉ B.toList := by rw [← hB]; decide
  have c : '%' ∉ C.toList := by rw [← hC]; decide
  have d : '%' ∉ D.toList := by rw [← hD]; decide
  have e : '%' ∉ E.toList := by rw [← hE]; decide
  simp only [List.append_assoc]
  rw [pyModChars_copy _ _ _ a, pyModChars_copy _ _ _ hc, pyModChars_copy _ _ _ b,
    pyModChars_copy _ _ _ hl, pyModChars_copy _ _ _ c, pyModChars_arg, pyModChars_copy _ _ _ d,
    pyModChars_arg, pyModChars_copy _ _ _ e]
  simp only [pyModChars, Except.map, bind, Except.bind, pure, Except.pure]
  congr 1
  unfold Spec.tableText
  rw [hA, hB, hC, hD, hE]
  apply String.toList_injective
  simp only [String.toList_ofList, String.toList_append, List.append_assoc, List.append_nil]

/-- How lengths and percent signs add up in a successful `fmt % args`: there is a number `p` of `%%`. -/
theorem pyModChars_count (fmt : List Char) (as : List String) (out : List Char)
    (h : pyModChars fmt as = .ok out) : ∃ p : Nat,
      out.length + 2 * as.length + p = fmt.length + (as.map String.length).sum ∧
      fmt.count '%' = as.length + 2 * p := by
  have map_ok : ∀ {r : Res (List Char)} {f : List Char → List Char} {o : List Char},
      r.map f = .ok o → ∃ x, r = .ok x ∧ o = f x := by
    intro r f o h
    cases r with
    | error e => cases h
    | ok x => exact ⟨x, rfl, (Except.ok.inj h).symm⟩
  induction fmt, as using pyModChars.induct generalizing out with
  | case1 => rw [pyModChars] at h; cases h; exact ⟨0, by simp⟩
  | case2 => rw [pyModChars] at h; cases h
  | case3 cs as ih =>
    rw [pyModChars_pct] at h
    obtain ⟨o, ho, rfl⟩ := map_ok h
    obtain ⟨p, h1, h2⟩ := ih o ho
    exact ⟨p + 1, by simp; omega, by simp [h2]; omega⟩
  | case4 cs a as ih =>
    rw [pyModChars_arg] at h
    obtain ⟨o, ho, rfl⟩ := map_ok h
    obtain ⟨p, h1, h2⟩ := ih o ho
    refine ⟨p, ?_, ?_⟩
    · simp only [List.length_append, String.length_toList, List.length_cons, List.map_cons, List.sum_cons]; omega
    · simp [h2]; omega
  | case5 t as h1 h2 =>
    rw [pyModChars] at h
    · cases h
    · exact h1
    · exact h2
  | case6 c cs as h1 h2 h3 ih =>
    have hc : c ≠ '%' := h3
    rw [pyModChars_char _ _ _ hc] at h
    obtain ⟨o, ho, rfl⟩ := map_ok h
    obtain ⟨p, h4, h5⟩ := ih o ho
    exact ⟨p, by simp; omega, by simp [h5, hc]⟩

/-- A percent sign in the caption or label always spoils the table. -/
theorem pyMod_frame_ne (caption label columns body : String)
    (h : '%' ∈ caption.toList ∨ '%' ∈ label.toList) :
    pyMod (latexFrame caption label) [columns, body] ≠
      .ok (Spec.tableText caption label columns body) := by
  intro he
  obtain ⟨out, ho, hs⟩ := (bind_ok_iff ..).1 he
  obtain ⟨p, h1, h2⟩ := pyModChars_count _ _ _ ho
  have hout : out = (Spec.tableText caption label columns body).toList := by
    rw [← Except.ok.inj hs, String.toList_ofList]
  have hcount : 0 < caption.toList.count '%' + label.toList.count '%' := by
    rcases h with h | h
    · have := List.count_pos_iff.2 h; omega
    · have := List.count_pos_iff.2 h; omega
  have e1 : (latexFrame caption label).toList.count '%' =
      caption.toList.count '%' + label.toList.count '%' + 2 := by
    unfold latexFrame
    simp only [String.toList_append, List.count_append]
    have a : ("\\begin{table}\n    \\centering\n    \\caption{" : String).toList.count '%' = 0 := by decide
    have b : ("}\n    \\label{" : String).toList.count '%' = 0 := by decide
    have c : ("}\n    \\begin{tabular}{%s}\n        %s    \\end{tabular}\n\\end{table}" : String).toList.count '%'
      = 2 := by decide
    rw [a, b, c]
    omega
  have e2 : out.length + 4 = (latexFrame caption label).toList.length +
      ([columns, body].map String.length).sum := by
    rw [hout]
    unfold latexFrame Spec.tableText
    simp only [String.toList_append, List.length_append, String.length_toList, List.map_cons,
      List.map_nil, List.sum_cons, List.sum_nil]
    have a : ("}\n    \\begin{tabular}{%s}\n        %s    \\end{tabular}\n\\end{table}" : String).length =
      ("}\n    \\begin{tabular}{" : String).length + ("}\n        " : String).length +
      ("    \\end{tabular}\n\\end{table}" : String).length + 4 := by decide
    rw [a]
    omega
  simp only [List.length_cons, List.length_nil] at h1 h2
  omega

/-- **C44** (what holds). If caption and label contain no percent sign, every table contains both
exactly as given: the parameter table, the comparison table, and the covariance and correlation
tables. What is missing from the full property are percent signs, see `C44_violated`. -/
theorem C44_verbatim_partial (caption label : String) (hc : '%' ∉ caption.toList)
    (hl : '%' ∉ label.toList) :
    (∀ kde h s req (o : TableOpts) text, o.caption = some caption → o.label = some label →
      latexTable kde h s req o = .ok text → ∃ columns body, text = Spec.tableText caption label columns body) ∧
    (∀ tie fmt (o : CompOpts) cs text, o.caption = some caption → o.label = label →
      comparisonTable tie fmt o cs = .ok text →
        ∃ columns body, text = Spec.tableText caption label columns body) ∧
    (∀ h s labels arg columns text, covarianceTable (K := ℝ) h s labels arg columns caption label = .ok text ∨
        correlationTable h s labels arg columns caption label = .ok text →
      ∃ columns body, text = Spec.tableText caption label columns body) := by
  have hm : ∀ labels (m : NamedMatrix ℝ) text, matrixTable labels m caption label = .ok text →
      ∃ columns body, text = Spec.tableText caption label columns body := by
    intro labels m text h
    unfold matrixTable at h
    simp only at h
    split at h
    · cases h
    · split at h
      · cases h
      · rw [pyMod_frame _ _ _ _ hc hl] at h
        exact ⟨_, _, (Except.ok.inj h).symm⟩
  refine ⟨?_, ?_, ?_⟩
  · intro kde h s req o text h1 h2 h3
    obtain ⟨p, -, h4⟩ := (bind_ok_iff ..).1 h3
    rw [h1, h2] at h4
    simp only [Option.getD_some] at h4
    rw [pyMod_frame _ _ _ _ hc hl] at h4
    exact ⟨_, _, (Except.ok.inj h4).symm⟩
  · intro tie fmt o cs text h1 h2 h3
    obtain ⟨p, -, h4⟩ := (bind_ok_iff ..).1 h3
    rw [h1, h2] at h4
    simp only [Option.getD_some] at h4
    rw [pyMod_frame _ _ _ _ hc hl] at h4
    exact ⟨_, _, (Except.ok.inj h4).symm⟩
  · rintro h s labels arg columns text (h1 | h1)
    all_goals
      obtain ⟨c, -, h2⟩ := (bind_ok_iff ..).1 h1
      obtain ⟨m, -, h3⟩ := (bind_ok_iff ..).1 h2
      exact hm _ _ _ h3

/-- The parameter table is assembled whenever its cells can be computed. -/
theorem latexTable_text {kde : KdeFn} {h : Heap ℝ} {s : Consumer ℝ} {req : ChainReq ℝ} {o : TableOpts}
    {p : TableParts} (hp : latexTableParts kde h s req o = .ok p)
    (hc : '%' ∉ (o.caption.getD "").toList) (hl : '%' ∉ (o.label.getD "").toList) :
    latexTable kde h s req o = .ok (Spec.tableText (o.caption.getD "") (o.label.getD "") p.columnText
      (tableCenter o.hlines p)) := by
  simp only [latexTable, hp, bind, Except.bind]
  exact pyMod_frame _ _ _ _ hc hl

/-- **C44** (violation). With a percent sign in the caption or label, no call produces the table with
caption and label as given. -/
theorem C44_violated (caption label : String) (h : '%' ∈ caption.toList ∨ '%' ∈ label.toList) :
    (∀ kde hp s req (o : TableOpts) p, o.caption = some caption → o.label = some label →
      latexTableParts kde hp s req o = .ok p →
      latexTable kde hp s req o ≠
        .ok (Spec.tableText caption label p.columnText (tableCenter o.hlines p))) ∧
    (∀ tie fmt (o : CompOpts) cs (p : CompParts), o.caption = some caption → o.label = label →
      o.hlines = false → compParts tie fmt o cs = .ok p →
      comparisonTable tie fmt o cs ≠
        .ok (Spec.tableText caption label p.columnText (p.header ++ String.join p.lines))) := by
  refine ⟨?_, ?_⟩
  · intro kde hp s req o p h1 h2 h3 h4
    simp only [latexTable, h3, bind, Except.bind, h1, h2, Option.getD_some] at h4
    exact pyMod_frame_ne _ _ _ _ h h4
  · intro tie fmt o cs p h1 h2 h3 h4 h5
    simp only [comparisonTable, h4, bind, Except.bind, h1, h2, h3, Option.getD_some] at h5
    have e : "" ++ p.header ++ "" ++ String.join p.lines ++ "" = p.header ++ String.join p.lines := by
      simp
    rw [show ((if false = true then "\\hline\n" else "") : String) = "" from rfl,
      show ((if false = true then "\t\\hline\n" else "") : String) = "" from rfl, e] at h5
    exact pyMod_frame_ne _ _ _ _ h h5

/-- A caption ending in a percent sign: the call raises. One with a doubled percent sign: the caption
is altered. -/
example : pyMod (latexFrame "errors at 68%" "tab:a") ["cc", "body"] = .error .type ∧
    pyMod (latexFrame "errors at 68%%" "tab:a") ["cc", "body"] =
      .ok (Spec.tableText "errors at 68%" "tab:a" "cc" "body") := by
  decide +kernel

end CC
