import Verif.Props.SameView
import Verif.Props.ColumnOrder

/-! # C132, figures: the order of the columns carries no meaning -/

namespace CC
open Spec

/-- Tables with the same columns in another order. -/
def Spec.MovedTable (f g : Frame ℝ) : Prop := g.index = f.index ∧ g.cols.Perm f.cols ∧ f.columns.Nodup

theorem movedTable_moved {c d : Chain ℝ} (h : Retabled MovedTable c d) : ColumnsMoved c d := ⟨h.1, h.2.1, h.2.2.1, h.2.2.2⟩

theorem point_nodup {c : Chain ℝ} (hn : c.samples.columns.Nodup) {b : Chain.MaxPosterior ℝ} (h : c.maxPosteriorPoint = .ok (some b)) :
    (b.coordinate.map Prod.fst).Nodup := by
  have hnd : ∀ i, ((c.samples.row i).map Prod.fst).Sublist c.samples.columns := by
    intro i
    rw [Frame.columns, Frame.row]
    induction c.samples.cols with
    | nil => exact .slnil
    | cons e es ih =>
      rw [List.filterMap_cons, List.map_cons]
      cases e.2[i]? with
      | none => exact ih.cons _
      | some v => exact ih.cons_cons _
  simp only [Chain.maxPosteriorPoint] at h
  split at h
  · cases h
  · split at h
    · cases h
    · split at h
      · cases h
      · split at h
        · cases h
        · cases h
          exact hn.sublist (((List.filter_sublist.trans List.filter_sublist).map _).trans (hnd _))
      · cases h

theorem moved_view {c d : Chain ℝ} (h : Retabled MovedTable c d) : SameView false c d := by
  have hm := movedTable_moved h
  refine ⟨h.1, fun p => lookup_of_perm hm.names hm.cols p, by rw [hm.index], hm.cols.length_eq, fun _ => ?_, by simp⟩
  obtain ⟨h1, h2, h3⟩ := C132_best_point_partial hm
  unfold bestAt
  cases hc : c.maxPosteriorPoint with
  | error e => rw [h2 e hc]
  | ok o =>
    cases o with
    | none => rw [h1 hc]
    | some b =>
      obtain ⟨b', hb, -, hp⟩ := h3 b hc
      rw [hb]
      have : (fun k => b'.coordinate.lookup k) = fun k => b.coordinate.lookup k := by
        funext k
        exact lookup_of_perm (point_nodup hm.names hc) hp k
      change Except.ok (some fun k => b'.coordinate.lookup k) = Except.ok (some fun k => b.coordinate.lookup k)
      rw [this]

/-- **C132, partial** (figures). With the parameters to be drawn given, all figures and the legend of registered chains are the same when the
columns of tables are moved. (Without, the parameters are drawn in the order of the columns.) -/
theorem C132_figures_partial (lib : Lib) (cfg : PlotConfig) (lc : LegendConfig) (truths : List (Truth ℝ)) {h h' : Heap ℝ}
    (hh : List.Forall₂ ColumnsMoved h h') (s : Consumer ℝ) (req : ChainReq ℝ) (columns : List String)
    (plotWeights plotPosterior logWeight errorbar : Bool) (colWrap : Nat) :
    (do plot lib cfg truths (← finalDict h' s) req (some columns)) = (do plot lib cfg truths (← finalDict h s) req (some columns)) ∧
    (do plotWalks cfg truths plotWeights plotPosterior logWeight (← finalDict h' s) req (some columns)) =
      (do plotWalks cfg truths plotWeights plotPosterior logWeight (← finalDict h s) req (some columns)) ∧
    (do plotDistributions lib cfg truths colWrap (← finalDict h' s) req (some columns)) =
      (do plotDistributions lib cfg truths colWrap (← finalDict h s) req (some columns)) ∧
    (do plotSummary lib cfg truths errorbar (← finalDict h' s) req (some columns)) =
      (do plotSummary lib cfg truths errorbar (← finalDict h s) req (some columns)) ∧
    (do plotLegend lc cfg (← sanitise cfg (← finalDict h' s) req (some columns) true)) =
      (do plotLegend lc cfg (← sanitise cfg (← finalDict h s) req (some columns) true)) := by
  have hr : List.Forall₂ (Retabled MovedTable) h h' := hh.imp fun c d hm => ⟨hm.rest, hm.index, hm.cols, hm.names⟩
  rcases retabled_final hr s with ⟨e, h1, h2⟩ | ⟨d, d', h1, h2, hf⟩
  · rw [h1, h2]
    exact ⟨rfl, rfl, rfl, rfl, rfl⟩
  · have hv : SameFinal false d d' := hf.imp fun e e' h => ⟨h.1, moved_view h.2⟩
    simp only [h1, h2]
    exact view_figures hv lib cfg lc truths req (some columns) (Or.inr rfl) plotWeights plotPosterior logWeight errorbar colWrap

/-- The hypotheses are met by a chain whose columns are reversed. -/
example : ∃ h h' : Heap ℝ, List.Forall₂ ColumnsMoved h h' ∧ h ≠ h' ∧ ∃ c ∈ h, ∃ b, c.maxPosteriorPoint = .ok (some b) := by
  let fr : Frame ℝ := { index := [.int 0, .int 1], cols := [("a", [1, 2]), ("weight", [1, 1]), ("log_posterior", [0, 3])] }
  have hfr : fr.WF := ⟨by simp [fr], by simp [fr]⟩
  obtain ⟨c, hmk, hsam, hw, hp, -⟩ := plain_chain fr hfr (by simp [fr]) (w := [1, 1]) rfl (by simp) "c"
  obtain ⟨b, -, hb, -⟩ := C12_max_posterior_partial _ c (toRaw_WF.2 hfr) hmk (by rw [hsam]; rfl) [0, 3] (by rw [hsam, hp]; rfl)
  refine ⟨[c], [{ c with samples := { c.samples with cols := c.samples.cols.reverse } }],
    .cons ⟨rfl, rfl, List.reverse_perm _, by rw [hsam]; exact hfr.1⟩ .nil, ?_, c, by simp, b, hb⟩
  intro he
  have := congrArg (fun l : List (Chain ℝ) => l.map fun c => c.samples.columns) he
  simp [hsam, fr, Frame.columns] at this

end CC
