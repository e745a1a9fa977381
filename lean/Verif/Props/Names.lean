import Verif.Props.Columns
import Verif.Props.Comparison
import Verif.Model.Diagnostic
import Verif.Model.Histogram2d
import Verif.Lemmas.Demo

/-! # C131: the names of the parameters carry no meaning

Calling the parameters by other names renames them in everything that is reported and changes nothing else. The names that the library
keeps for itself are the exception. -/

set_option linter.unusedSectionVars false

namespace CC
open Spec

/-- A change of the names of the parameters: different names stay different, the columns of weights and posteriors keep their names, and
names that the library keeps for itself are neither given nor taken away. -/
structure Spec.Renames (σ : String → String) (wc pc : String) : Prop where
  inj : Function.Injective σ
  weight : σ wc = wc
  posterior : σ pc = pc
  own : ∀ n, (pyLower (σ n) ∈ ["weight", "weights", "posterior", "posteriors", "log_weights", "log_posterior", "log_posteriors"]) ↔
    pyLower n ∈ ["weight", "weights", "posterior", "posteriors", "log_weights", "log_posterior", "log_posteriors"]

section
variable {K : Type}

/-- The user's table under the new names. -/
def Spec.renamedTable (σ : String → String) (f : RawFrame K) : RawFrame K :=
  ⟨f.index, f.cols.map fun e => (match e.1 with | .str s => .str (σ s) | .other i => .other i, e.2)⟩

/-- A setting under the new names: only `color_param` names a parameter. -/
def Spec.renamedKw (σ : String → String) : Kwarg K → Kwarg K
  | ⟨.colorParam, v⟩ => ⟨.colorParam, Option.map σ v⟩
  | ⟨k, v⟩ => ⟨k, v⟩

/-- The arguments of `Chain(...)` under the new names. -/
def Spec.renamedArgs [Field K] (σ : String → String) (a : Args K) : Args K :=
  { a with samples := renamedTable σ a.samples, config := a.config.map (renamedKw σ) }

/-- The chain under the new names. -/
def Spec.renamed (σ : String → String) (c : Chain K) : Chain K :=
  { c with
    samples := ⟨c.samples.index, c.samples.cols.map fun e => (σ e.1, e.2)⟩
    cfg := c.cfg.set ⟨.colorParam, Option.map σ (c.cfg .colorParam)⟩ }

/-- The frame under the new names. -/
def renFrame (σ : String → String) (f : Frame K) : Frame K := ⟨f.index, f.cols.map fun e => (σ e.1, e.2)⟩

/-! ## Reading a renamed frame -/

theorem lookup_ren {σ : String → String} (hi : Function.Injective σ) {β : Type} (l : List (String × β)) (p : String) :
    (l.map fun e => (σ e.1, e.2)).lookup (σ p) = l.lookup p := by
  induction l with
  | nil => rfl
  | cons e es ih =>
    obtain ⟨m, v⟩ := e
    have : (σ p == σ m) = (p == m) := by
      rw [Bool.eq_iff_iff]
      simp [hi.eq_iff]
    simp only [List.map_cons, List.lookup_cons, ih, this]

theorem ren_get {σ : String → String} (hi : Function.Injective σ) (f : Frame K) (p : String) :
    (renFrame σ f).get (σ p) = f.get p := by
  simp only [Frame.get, renFrame, lookup_ren hi]

theorem ren_getMany {σ : String → String} (hi : Function.Injective σ) (f : Frame K) (ps : List String) :
    (renFrame σ f).getMany (ps.map σ) = f.getMany ps := by
  induction ps with
  | nil => rfl
  | cons p ps ih => simp only [List.map_cons, Frame.getMany, ren_get hi, ih]

theorem ren_columns (σ : String → String) (f : Frame K) : (renFrame σ f).columns = f.columns.map σ := by
  simp [Frame.columns, renFrame, List.map_map, Function.comp_def]

theorem ren_row (σ : String → String) (f : Frame K) (i : Nat) : (renFrame σ f).row i = (f.row i).map fun e => (σ e.1, e.2) := by
  simp only [Frame.row, renFrame, List.filterMap_map, List.map_filterMap]
  congr 1
  funext e
  cases h : e.2[i]? <;> simp [h]

theorem ren_set {σ : String → String} (hi : Function.Injective σ) (f : Frame K) (p : String) (v : List K) :
    (renFrame σ f).set (σ p) v = renFrame σ (f.set p v) := by
  simp only [Frame.set, renFrame, List.map_map, Frame.mk.injEq, true_and]
  refine List.map_congr_left fun e _ => ?_
  simp only [Function.comp_apply, hi.eq_iff]
  split <;> rfl

theorem mem_map_ren {σ : String → String} (hi : Function.Injective σ) {l : List String} {p : String} : σ p ∈ l.map σ ↔ p ∈ l :=
  List.mem_map_of_injective hi

theorem ren_cfg (σ : String → String) (c : Chain K) {k : Key} (h : k ≠ .colorParam) : (renamed σ c).cfg k = c.cfg k :=
  Function.update_of_ne h _ _

theorem ren_color (σ : String → String) (c : Chain K) : (renamed σ c).cfg .colorParam = Option.map σ (c.cfg .colorParam) :=
  by simp [renamed, Cfg.set]

theorem ren_dataColumns {σ : String → String} {c : Chain K} (h : Renames σ c.weightColumn c.posteriorColumn) :
    (renamed σ c).dataColumns = c.dataColumns.map σ := by
  have hc : (renamed σ c).samples.columns = c.samples.columns.map σ := ren_columns σ c.samples
  simp only [Chain.dataColumns, hc, List.filter_map]
  congr 1
  refine List.filter_congr fun n _ => ?_
  have h1 : (σ n == (renamed σ c).weightColumn) = (n == c.weightColumn) := by
    rw [Bool.eq_iff_iff]
    have : (renamed σ c).weightColumn = σ c.weightColumn := h.weight.symm
    simp [this, h.inj.eq_iff]
  have h2 : (σ n == (renamed σ c).posteriorColumn) = (n == c.posteriorColumn) := by
    rw [Bool.eq_iff_iff]
    have : (renamed σ c).posteriorColumn = σ c.posteriorColumn := h.posterior.symm
    simp [this, h.inj.eq_iff]
  have h3 : (pyLower (σ n) ∈ Chain.reserved) = (pyLower n ∈ Chain.reserved) := propext (h.own n)
  simp only [Function.comp_apply, h1, h2, h3]

theorem ren_plottingColumns {σ : String → String} {c : Chain K} (h : Renames σ c.weightColumn c.posteriorColumn) :
    (renamed σ c).plottingColumns = c.plottingColumns.map σ := by
  simp only [Chain.plottingColumns, ren_dataColumns h, ren_cfg σ c (k := .plotCloud) (by simp), ren_color]
  split
  · rfl
  · rw [List.filter_map]
    congr 1
    refine List.filter_congr fun n _ => ?_
    cases hc : c.cfg .colorParam with
    | none => simp
    | some q => simp [h.inj.eq_iff]

theorem ren_weights {σ : String → String} {c : Chain K} (h : Renames σ c.weightColumn c.posteriorColumn) :
    (renamed σ c).weights = c.weights := by
  have := ren_get h.inj c.samples c.weightColumn
  rw [h.weight] at this
  exact this

theorem ren_logPosterior {σ : String → String} {c : Chain K} (h : Renames σ c.weightColumn c.posteriorColumn) :
    (renamed σ c).logPosterior = c.logPosterior := by
  have := lookup_ren h.inj c.samples.cols c.posteriorColumn
  rw [h.posterior] at this
  exact this

/-! ## Construction -/

theorem ren_apply (σ : String → String) (g : Cfg K) (kw : List (Kwarg K)) :
    Cfg.apply (g.set ⟨.colorParam, Option.map σ (g .colorParam)⟩) (kw.map (renamedKw σ)) =
      (g.apply kw).set ⟨.colorParam, Option.map σ ((g.apply kw) .colorParam)⟩ := by
  induction kw generalizing g with
  | nil => rfl
  | cons kv kw ih =>
    have hstep : (g.set ⟨.colorParam, Option.map σ (g .colorParam)⟩).set (renamedKw σ kv) =
        (g.set kv).set ⟨.colorParam, Option.map σ ((g.set kv) .colorParam)⟩ := by
      obtain ⟨k, v⟩ := kv
      by_cases hk : k = .colorParam
      · subst hk
        simp [Cfg.set, renamedKw]
      · have h1 : renamedKw σ (⟨k, v⟩ : Kwarg K) = ⟨k, v⟩ := by
          cases k <;> first | rfl | exact absurd rfl hk
        rw [h1]
        simp only [Cfg.set, Function.update_of_ne (Ne.symm hk)]
        rw [Function.update_comm (Ne.symm hk)]
    change Cfg.apply ((g.set ⟨.colorParam, Option.map σ (g .colorParam)⟩).set (renamedKw σ kv)) (kw.map (renamedKw σ)) = _
    rw [hstep, ih]
    rfl

theorem ren_default [Field K] (σ : String → String) :
    (Cfg.default K).set ⟨.colorParam, Option.map σ ((Cfg.default K) .colorParam)⟩ = Cfg.default K :=
  Function.update_eq_self (f := Cfg.default K) Key.colorParam

theorem lookup_table {σ : String → String} (hi : Function.Injective σ) (f : RawFrame K) (p : String) :
    (renamedTable σ f).cols.lookup (.str (σ p)) = f.cols.lookup (.str p) := by
  simp only [renamedTable]
  induction f.cols with
  | nil => rfl
  | cons e es ih =>
    obtain ⟨m, v⟩ := e
    cases m with
    | str m =>
      have : (ColLabel.str (σ p) == ColLabel.str (σ m)) = (ColLabel.str p == ColLabel.str m) := by
        rw [Bool.eq_iff_iff]
        simp [hi.eq_iff]
      simp only [List.map_cons, List.lookup_cons, ih, this]
    | other i =>
      have h1 : (ColLabel.str (σ p) == ColLabel.other i) = false := by simp
      have h2 : (ColLabel.str p == ColLabel.other i) = false := by simp
      simp only [List.map_cons, List.lookup_cons, ih, h1, h2]

theorem ren_checkColumn (σ : String → String) (e : ColLabel × List (Flt K)) :
    checkColumn ((match e.1 with | .str s => .str (σ s) | .other i => .other i), e.2) = (fun x => (σ x.1, x.2)) <$> checkColumn e := by
  obtain ⟨m, v⟩ := e
  cases m with
  | other i => rfl
  | str s =>
    simp only [checkColumn]
    cases v.mapM Flt.toFin? <;> rfl

theorem ren_checkColumns (σ : String → String) (f : RawFrame K) :
    checkColumns (renamedTable σ f) = renFrame σ <$> checkColumns f := by
  have key : ∀ l : List (ColLabel × List (Flt K)),
      (l.map fun e => ((match e.1 with | .str s => .str (σ s) | .other i => .other i : ColLabel), e.2)).mapM checkColumn =
        (List.map fun x => (σ x.1, x.2)) <$> l.mapM checkColumn := by
    intro l
    induction l with
    | nil => rfl
    | cons e es ih =>
      rw [List.map_cons, List.mapM_cons, List.mapM_cons, ih, ren_checkColumn]
      cases checkColumn e with
      | error x => rfl
      | ok y => cases es.mapM checkColumn <;> rfl
  simp only [checkColumns, renamedTable]
  rw [key]
  cases f.cols.mapM checkColumn <;> rfl

section
variable [Field K] [LinearOrder K]

theorem ren_addWeights {σ : String → String} (hi : Function.Injective σ) {wc : String} (hw : σ wc = wc) (f : RawFrame K) :
    addWeights (renamedTable σ f) wc = renamedTable σ <$> addWeights f wc := by
  have hl := lookup_table hi f wc
  rw [hw] at hl
  simp only [addWeights, hl]
  cases f.cols.lookup (.str wc) with
  | none =>
    simp only
    split
    · simp only [renamedTable, List.map_append, List.map_cons, List.map_nil, hw, Functor.map, Except.map]
    · rfl
  | some w =>
    simp only
    split <;> rfl

theorem ren_shiftColumn {σ : String → String} (hi : Function.Injective σ) {wc : String} (hw : σ wc = wc) (f : Frame K) (p : String) :
    shiftColumn wc (renFrame σ f) (σ p) = renFrame σ <$> shiftColumn wc f p := by
  have h1 := ren_get hi f wc
  rw [hw] at h1
  simp only [shiftColumn, h1, ren_get hi]
  cases f.get wc with
  | error e => rfl
  | ok w =>
    cases f.get p with
    | error e => rfl
    | ok x =>
      change (average x w >>= _) = _ <$> (average x w >>= _)
      cases average x w with
      | error e => rfl
      | ok m => exact congrArg Except.ok (ren_set hi f p _)

theorem ren_shiftIf {σ : String → String} (hi : Function.Injective σ) {wc : String} (hw : σ wc = wc) (b : Bool) (f : Frame K) :
    shiftIf b wc (renFrame σ f) = renFrame σ <$> shiftIf b wc f := by
  have key : ∀ (ps : List String) (f : Frame K),
      (ps.map σ).foldlM (shiftColumn wc) (renFrame σ f) = renFrame σ <$> ps.foldlM (shiftColumn wc) f := by
    intro ps
    induction ps with
    | nil => intro f; rfl
    | cons p ps ih =>
      intro f
      rw [List.map_cons, List.foldlM_cons, List.foldlM_cons, ren_shiftColumn hi hw]
      cases shiftColumn wc f p with
      | error e => rfl
      | ok g => exact ih g
  simp only [shiftIf, shiftParams, ren_columns]
  split
  · exact key _ _
  · rfl

/-- The settings under the new names. -/
def renCfg (σ : String → String) (g : Cfg K) : Cfg K := g.set ⟨.colorParam, Option.map σ (g .colorParam)⟩

theorem renCfg_ne (σ : String → String) (g : Cfg K) {k : Key} (h : k ≠ .colorParam) : renCfg σ g k = g k :=
  Function.update_of_ne h _ _

theorem renCfg_color (σ : String → String) (g : Cfg K) : renCfg σ g .colorParam = Option.map σ (g .colorParam) := by
  simp [renCfg, Cfg.set]

theorem renCfg_set (σ : String → String) (g : Cfg K) {k : Key} (h : k ≠ .colorParam) (v : k.Ty K) :
    (renCfg σ g).set ⟨k, v⟩ = renCfg σ (g.set ⟨k, v⟩) := by
  simp only [renCfg, Cfg.set, Function.update_of_ne (Ne.symm h)]
  rw [Function.update_comm (Ne.symm h)]

theorem renCfg_resolve (σ : String → String) (g : Cfg K) : resolveStatistics (renCfg σ g) = renCfg σ (resolveStatistics g) := by
  unfold resolveStatistics
  rw [renCfg_ne σ g (k := .statistics) (by simp), renCfg_ne σ g (k := .multimodal) (by simp)]
  cases g .statistics with
  | none => exact renCfg_set σ g (by simp) _
  | some s => rfl

theorem make_renamed {σ : String → String} {a : Args K} (hinj : Function.Injective σ) (hweight : σ a.weightColumn = a.weightColumn) :
    Chain.make (renamedArgs σ a) = renamed σ <$> Chain.make a := by
  have hcfg : (Cfg.default K).apply (renamedArgs σ a).config = renCfg σ ((Cfg.default K).apply a.config) := by
    have := ren_apply σ (Cfg.default K) a.config
    rw [ren_default] at this
    exact this
  have hk : (renCfg σ ((Cfg.default K).apply a.config)).constraintsOk = ((Cfg.default K).apply a.config).constraintsOk := by
    simp only [Cfg.constraintsOk]
    rw [renCfg_ne _ _ (by simp), renCfg_ne _ _ (by simp)]
  have he : (renamedTable σ a.samples).empty = a.samples.empty := by
    simp [RawFrame.empty, renamedTable]
  have hu : (renamedArgs σ a).config.map (·.1) = a.config.map (·.1) := by
    simp only [renamedArgs, List.map_map]
    refine List.map_congr_left fun kv _ => ?_
    obtain ⟨k, v⟩ := kv
    cases k <;> rfl
  have ha : (renamedArgs σ a).constraintsOk = a.constraintsOk := rfl
  have hs : (renamedArgs σ a).samples = renamedTable σ a.samples := rfl
  have hwc : (renamedArgs σ a).weightColumn = a.weightColumn := rfl
  simp only [Chain.make, hcfg, hk, hs, he, ha, hwc, hu, renCfg_ne σ _ (k := .color) (by simp), ren_addWeights hinj hweight]
  cases validateColor (((Cfg.default K).apply a.config) .color) with
  | error e => rfl
  | ok col =>
    change (ensure _ _ >>= _) = _ <$> (ensure _ _ >>= _)
    cases ensure Err.validation (((Cfg.default K).apply a.config).constraintsOk && a.constraintsOk) with
    | error e => rfl
    | ok _ =>
      change (ensure _ _ >>= _) = _ <$> (ensure _ _ >>= _)
      cases ensure Err.validation (!a.samples.empty) with
      | error e => rfl
      | ok _ =>
        change ((_ <$> addWeights _ _) >>= _) = _ <$> (addWeights _ _ >>= _)
        cases addWeights a.samples a.weightColumn with
        | error e => rfl
        | ok raw =>
          change (checkColumns (renamedTable σ raw) >>= _) = _ <$> (checkColumns raw >>= _)
          rw [ren_checkColumns]
          cases checkColumns raw with
          | error e => rfl
          | ok f =>
            change (shiftIf _ a.weightColumn (renFrame σ f) >>= _) = _ <$> (shiftIf _ _ f >>= _)
            rw [renCfg_set σ _ (by simp), renCfg_ne σ _ (k := .shiftParams) (by simp), ren_shiftIf hinj hweight]
            generalize ((Cfg.default K).apply a.config).set ⟨.color, col⟩ = g
            cases shiftIf (g .shiftParams) a.weightColumn f with
            | error e => rfl
            | ok f =>
              change (ensure _ (_ : Bool) >>= _) = _ <$> (ensure _ (_ : Bool) >>= _)
              rw [renCfg_color, renCfg_resolve, renCfg_ne σ _ (k := .multimodal) (by simp), renCfg_ne σ _ (k := .statistics) (by simp), ren_columns]
              have hall : Option.all (fun p => decide (p ∈ f.columns.map σ)) (Option.map σ (g .colorParam)) =
                  Option.all (fun p => decide (p ∈ f.columns)) (g .colorParam) := by
                cases g .colorParam with
                | none => rfl
                | some p => simp only [Option.map_some, Option.all_some, mem_map_ren hinj]
              rw [hall]
              change (ensure _ (f.index.length % a.walkers.toNat == 0) >>= _) = _
              cases ensure Err.validation (f.index.length % a.walkers.toNat == 0) with
              | error e => rfl
              | ok _ =>
                change (ensure _ _ >>= _) = _ <$> (ensure _ _ >>= _)
                cases ensure Err.validation (Option.all (fun p => decide (p ∈ f.columns)) (g .colorParam)) with
                | error e => rfl
                | ok _ =>
                  change (ensure _ (a.numEffDataPoints.all Flt.isFinite) >>= _) = _ <$> (ensure _ _ >>= _)
                  cases ensure Err.validation (a.numEffDataPoints.all Flt.isFinite) with
                  | error e => rfl
                  | ok _ =>
                    change (ensure _ _ >>= _) = _ <$> (ensure _ _ >>= _)
                    cases ensure Err.validation (!((resolveStatistics g) .multimodal && decide ((resolveStatistics g) .statistics ≠ some .hdi))) with
                    | error e => rfl
                    | ok _ => rfl

/-- **C131, partial** (construction). A table and settings under other names make the same chain under these names, or are rejected alike. -/
theorem C131_construction_partial {σ : String → String} {a : Args K} (h : Renames σ a.weightColumn a.posteriorColumn) :
    Chain.make (renamedArgs σ a) = renamed σ <$> Chain.make a :=
  make_renamed h.inj h.weight

/-- **C131** (violated). A parameter that is given a name the library keeps for itself, in capitals or not, is a parameter no longer: the
chain is accepted with the column in it, and everything but this column is a parameter as before. -/
theorem C131_violated {a : Args K} {c : Chain K} {p n : String} (hc : Chain.make a = .ok c) (hp : p ∈ c.dataColumns)
    (hn : pyLower n ∈ ["weight", "weights", "posterior", "posteriors", "log_weights", "log_posterior", "log_posteriors"])
    (hnew : n ∉ c.samples.columns) (hnw : n ≠ c.weightColumn) :
    ∃ c', Chain.make (renamedArgs (Equiv.swap p n) a) = .ok c' ∧ c'.samples.get n = c.samples.get p ∧
      c'.dataColumns = c.dataColumns.filter fun q => decide (q ≠ p) := by
  have hwc : c.weightColumn = a.weightColumn := (make_fields hc).2.1
  have hpw : p ≠ c.weightColumn := by
    rintro rfl
    simp [Chain.dataColumns] at hp
  refine ⟨_, by
    rw [make_renamed (Equiv.swap p n).injective (by rw [← hwc]; exact Equiv.swap_apply_of_ne_of_ne hpw.symm hnw.symm), hc]
    rfl, ?_, ?_⟩
  · have := ren_get (Equiv.swap p n).injective c.samples p
    rw [Equiv.swap_apply_left] at this
    exact this
  · have hcol : (renamed (Equiv.swap p n) c).samples.columns = c.samples.columns.map (Equiv.swap p n) := ren_columns _ c.samples
    have h1 : (renamed (Equiv.swap p n) c).weightColumn = c.weightColumn := rfl
    have h2 : (renamed (Equiv.swap p n) c).posteriorColumn = c.posteriorColumn := rfl
    simp only [Chain.dataColumns, hcol, h1, h2, List.filter_filter]
    have key : ∀ l : List String, n ∉ l → (l.map (Equiv.swap p n)).filter (fun m => !(m == c.weightColumn || m == c.posteriorColumn) &&
        !(pyLower m ∈ Chain.reserved)) = l.filter fun q => decide (q ≠ p) &&
          (!(q == c.weightColumn || q == c.posteriorColumn) && !(pyLower q ∈ Chain.reserved)) := by
      intro l hl
      induction l with
      | nil => rfl
      | cons q l ih =>
        have ih := ih fun h => hl (List.mem_cons_of_mem _ h)
        have hq : q ≠ n := fun h => hl (h ▸ List.mem_cons_self ..)
        by_cases hqp : q = p
        · subst hqp
          have hr : pyLower n ∈ Chain.reserved := hn
          rw [List.map_cons, Equiv.swap_apply_left, List.filter_cons_of_neg (by simp [hr]), List.filter_cons_of_neg (by simp), ih]
        · rw [List.map_cons, Equiv.swap_apply_of_ne_of_ne hqp hq, List.filter_cons, List.filter_cons, ih]
          simp only [ne_eq, hqp, not_false_eq_true, decide_true, Bool.true_and]
    exact key _ hnew

/-- **C131** (violated). In a table without weights, a parameter that is given the name "weight" is taken for the weights; if one of its
values is not positive, the chain is rejected. -/
theorem C131_violated_weight {a : Args K} {p : String} {v : List (Flt K)} (hw : a.weightColumn = "weight")
    (hshift : setting a .shiftParams = false) (hnone : a.samples.cols.lookup (.str "weight") = none)
    (hp : a.samples.cols.lookup (.str p) = some v) :
    (∀ c, Chain.make a = .ok c → c.weights = .ok (List.replicate a.samples.index.length 1)) ∧
    (∀ c', Chain.make (renamedArgs (Equiv.swap p "weight") a) = .ok c' → ∃ w, c'.weights = .ok w ∧ w.map Flt.fin = v) ∧
    ((∃ x ∈ v, x.gtZero = false) → ∀ c', Chain.make (renamedArgs (Equiv.swap p "weight") a) ≠ .ok c') := by
  have hl : (renamedArgs (Equiv.swap p "weight") a).samples.cols.lookup (.str "weight") = some v := by
    have := lookup_table (Equiv.swap p "weight").injective a.samples p
    rw [Equiv.swap_apply_left, hp] at this
    exact this
  have hshift' : setting (renamedArgs (Equiv.swap p "weight") a) .shiftParams = false := by
    have := ren_apply (Equiv.swap p "weight") (Cfg.default K) a.config
    rw [ren_default] at this
    unfold setting at hshift ⊢
    rw [← hshift]
    change (Cfg.default K).apply (a.config.map _) .shiftParams = _
    rw [this]
    exact Function.update_of_ne (by simp) _ _
  refine ⟨fun c hc => ?_, fun c' hc => ?_, ?_⟩
  · have h1 := (make_lookup hshift hc).1 "weight"
    rw [hnone, hw, if_pos rfl, lookup_toRaw] at h1
    have hwc : c.weightColumn = "weight" := (make_fields hc).2.1.trans hw
    simp only [Chain.weights, Frame.get, hwc]
    cases hx : c.samples.cols.lookup "weight" with
    | none => rw [hx] at h1; simp at h1
    | some w =>
      rw [hx] at h1
      simp only [Option.map_some, Option.none_or, Option.some.injEq] at h1
      refine congrArg Except.ok (map_fin_injective ?_)
      rw [h1]
      simp
  · have h1 := (make_lookup hshift' hc).1 "weight"
    rw [hl, lookup_toRaw, Option.some_or] at h1
    have hwc : c'.weightColumn = "weight" := (make_fields hc).2.1.trans hw
    simp only [Chain.weights, Frame.get, hwc]
    cases hx : c'.samples.cols.lookup "weight" with
    | none => rw [hx] at h1; simp at h1
    | some w =>
      rw [hx] at h1
      exact ⟨w, rfl, by simpa using h1⟩
  · rintro ⟨x, hx, hx0⟩ c' hc
    obtain ⟨col, raw, f0, f, _, _, _, h4, _⟩ := Chain.make_ok_iff.1 hc
    have : (renamedArgs (Equiv.swap p "weight") a).weightColumn = "weight" := hw
    rw [addWeights, this, hl] at h4
    dsimp only at h4
    rw [if_neg] at h4
    · cases h4
    · intro h
      have := List.all_eq_true.1 h x hx
      rw [hx0] at this
      cases this

end

end

/-! ## Reports -/

theorem ren_smooth (σ : String → String) (c : Chain ℝ) : (renamed σ c).smoothValue = c.smoothValue := by
  simp only [Chain.smoothValue, ren_cfg σ c (k := .smooth) (by simp)]
  rfl

theorem ren_bins (σ : String → String) (c : Chain ℝ) : getBins (renamed σ c) = getBins c := by
  have h1 : (renamed σ c).samples.cols.length = c.samples.cols.length := List.length_map _
  have h2 : (renamed σ c).samples.index = c.samples.index := rfl
  simp only [getBins, ren_smooth, ren_cfg σ c (k := .bins) (by simp), h1, h2]

theorem ren_get' {σ : String → String} {c : Chain ℝ} (h : Renames σ c.weightColumn c.posteriorColumn) (p : String) :
    (renamed σ c).samples.get (σ p) = c.samples.get p := ren_get h.inj c.samples p

theorem ren_smoothed (kde : KdeFn) {σ : String → String} {c : Chain ℝ} (h : Renames σ c.weightColumn c.posteriorColumn) (p : String)
    (pad : Bool) (u : Option Bool) : smoothedHistogram kde (renamed σ c) (σ p) pad u = smoothedHistogram kde c p pad u := by
  have h1 : ∀ x w, marginalBins (renamed σ c) x w pad = marginalBins c x w pad := by
    intro x w
    simp only [marginalBins, ren_smooth, ren_bins]
    rfl
  have h2 : ∀ x w b h a z xs, marginalYs kde (renamed σ c) u x w b h a z xs = marginalYs kde c u x w b h a z xs := by
    intro x w b h a z xs
    simp only [marginalYs, ren_smooth, ren_cfg σ c (k := .kde) (by simp)]
  simp only [smoothedHistogram, ren_get' h, ren_weights h, h1, h2]
  rfl

theorem ren_entry (kde : KdeFn) {σ : String → String} {c : Chain ℝ} (h : Renames σ c.weightColumn c.posteriorColumn) (p : String) :
    summaryEntry kde (renamed σ c) (σ p) = summaryEntry kde c p := by
  simp only [summaryEntry, parameterSummary, ren_smoothed kde h, ren_cfg σ c (k := .statistics) (by simp),
    ren_cfg σ c (k := .summaryArea) (by simp), ren_cfg σ c (k := .multimodal) (by simp)]

/-- The dictionary under the new names. -/
def renDict {β : Type} (σ : String → String) (d : List (String × β)) : List (String × β) := d.map fun e => (σ e.1, e.2)

theorem ren_dictSet {β : Type} {σ : String → String} (hi : Function.Injective σ) (d : List (String × β)) (p : String) (v : β) :
    dictSet (renDict σ d) (σ p) v = renDict σ (dictSet d p v) := by
  have hm : (renDict σ d).map Prod.fst = (d.map Prod.fst).map σ := by
    simp [renDict, List.map_map, Function.comp_def]
  have hiff : σ p ∈ (renDict σ d).map Prod.fst ↔ p ∈ d.map Prod.fst := by rw [hm, mem_map_ren hi]
  unfold dictSet
  by_cases hp : p ∈ d.map Prod.fst
  · rw [if_pos hp, if_pos (hiff.2 hp)]
    simp only [renDict, List.map_map]
    refine List.map_congr_left fun e _ => ?_
    simp only [Function.comp_apply, hi.eq_iff]
    split <;> rfl
  · rw [if_neg hp, if_neg (mt hiff.1 hp)]
    simp [renDict]

theorem ren_chainSummary (kde : KdeFn) {σ : String → String} {c : Chain ℝ} (h : Renames σ c.weightColumn c.posteriorColumn)
    (ps : List String) (res : List (String × Summary ℝ)) :
    chainSummary kde (renamed σ c) (ps.map σ) (renDict σ res) = renDict σ <$> chainSummary kde c ps res := by
  induction ps generalizing res with
  | nil => rfl
  | cons p ps ih =>
    have hc : (renamed σ c).samples.columns = c.samples.columns.map σ := ren_columns σ c.samples
    simp only [List.map_cons, chainSummary, hc, mem_map_ren h.inj, ren_entry kde h, ih, ren_dictSet h.inj]
    split
    · rfl
    · cases summaryEntry kde c p <;> rfl

theorem ren_foldl {σ : String → String} (hi : Function.Injective σ) (l res : List String) :
    (l.map σ).foldl (fun res col => if col ∈ res then res else res ++ [col]) (res.map σ) =
      (l.foldl (fun res col => if col ∈ res then res else res ++ [col]) res).map σ := by
  induction l generalizing res with
  | nil => rfl
  | cons p l ih =>
    simp only [List.map_cons, List.foldl_cons, mem_map_ren hi]
    rw [← ih]
    congr 1
    split <;> simp

theorem ren_sanitise {σ : String → String} (hi : Function.Injective σ) {cs : List (Chain ℝ)}
    (h : ∀ c ∈ cs, Renames σ c.weightColumn c.posteriorColumn) (columns : Option (List String)) :
    sanitiseColumns (columns.map (List.map σ)) (cs.map (renamed σ)) = (sanitiseColumns columns cs).map σ := by
  cases columns with
  | some l => rfl
  | none =>
    have key : ∀ res : List String, (cs.map (renamed σ)).foldl (fun res c =>
        c.plottingColumns.foldl (fun res col => if col ∈ res then res else res ++ [col]) res) (res.map σ) =
        (cs.foldl (fun res c => c.plottingColumns.foldl (fun res col => if col ∈ res then res else res ++ [col]) res) res).map σ := by
      induction cs with
      | nil => intro res; rfl
      | cons c cs ih =>
        intro res
        rw [List.map_cons, List.foldl_cons, List.foldl_cons, ren_plottingColumns (h c (by simp)), ren_foldl hi]
        exact ih (fun d hd => h d (List.mem_cons_of_mem _ hd)) _
    exact key []

theorem ren_loop (kde : KdeFn) {σ : String → String} {cs : List (Chain ℝ)} (h : ∀ c ∈ cs, Renames σ c.weightColumn c.posteriorColumn)
    (ps : List String) (res : List (String × List (String × Summary ℝ))) :
    summaryLoop kde (ps.map σ) (cs.map (renamed σ)) (res.map fun e => (e.1, renDict σ e.2)) =
      (List.map fun e => (e.1, renDict σ e.2)) <$> summaryLoop kde ps cs res := by
  induction cs generalizing res with
  | nil => rfl
  | cons c cs ih =>
    have hr := ren_chainSummary kde (h c (by simp)) ps []
    rw [List.map_cons]
    simp only [summaryLoop]
    change (chainSummary kde (renamed σ c) (ps.map σ) (renDict σ []) >>= _) = _
    rw [hr]
    cases chainSummary kde c ps [] with
    | error e => rfl
    | ok r =>
      have hd : dictSet (res.map fun e => (e.1, renDict σ e.2)) (renamed σ c).name (renDict σ r) =
          (dictSet res c.name r).map fun e => (e.1, renDict σ e.2) := by
        have hm : (res.map fun e => (e.1, renDict σ e.2)).map Prod.fst = res.map Prod.fst := by
          simp [List.map_map, Function.comp_def]
        have hn : (renamed σ c).name = c.name := rfl
        unfold dictSet
        rw [hm, hn]
        by_cases hp : c.name ∈ res.map Prod.fst
        · rw [if_pos hp, if_pos hp]
          simp only [List.map_map]
          refine List.map_congr_left fun e _ => ?_
          simp only [Function.comp_apply]
          split <;> rfl
        · rw [if_neg hp, if_neg hp]
          simp
      change summaryLoop kde (ps.map σ) (cs.map (renamed σ)) (dictSet _ (renamed σ c).name (renDict σ r)) = _
      rw [hd]
      exact ih (fun d hd => h d (List.mem_cons_of_mem _ hd)) _

/-- **C131, partial** (`get_summary`). Under other names the same summaries are reported, under these names and in the same order. -/
theorem C131_summary_partial (kde : KdeFn) {σ : String → String} (hi : Function.Injective σ) {cs : List (Chain ℝ)}
    (h : ∀ c ∈ cs, Renames σ c.weightColumn c.posteriorColumn) (columns : Option (List String)) (hp hp' : Heap ℝ) (s s' : Consumer ℝ) :
    getSummary kde hp' s' (some (cs.map (renamed σ))) (columns.map (List.map σ)) =
      (List.map fun e => (e.1, e.2.map fun x => (σ x.1, x.2))) <$> getSummary kde hp s (some cs) columns := by
  change summaryLoop kde (sanitiseColumns (columns.map (List.map σ)) (cs.map (renamed σ))) (cs.map (renamed σ)) [] = _
  rw [ren_sanitise hi h]
  exact ren_loop kde h _ []

theorem ren_data {σ : String → String} {c : Chain ℝ} (h : Renames σ c.weightColumn c.posteriorColumn) :
    (renamed σ c).samples.getMany (renamed σ c).dataColumns = c.samples.getMany c.dataColumns := by
  rw [ren_dataColumns h]
  exact ren_getMany h.inj c.samples _

/-- **C131, partial** (covariance, correlation). The same matrices, under the new names. -/
theorem C131_covariance_partial {σ : String → String} {c : Chain ℝ} (h : Renames σ c.weightColumn c.posteriorColumn) (columns : Option (List String)) :
    (renamed σ c).getCovariance (columns.map (List.map σ)) = (fun m => ⟨m.columns.map σ, m.array⟩) <$> c.getCovariance columns ∧
    (renamed σ c).getCorrelation (columns.map (List.map σ)) = (fun m => ⟨m.columns.map σ, m.array⟩) <$> c.getCorrelation columns := by
  have hcov : (renamed σ c).getCovariance (columns.map (List.map σ)) =
      (fun m => ⟨m.columns.map σ, m.array⟩) <$> c.getCovariance columns := by
    have hd : (columns.map (List.map σ)).getD (renamed σ c).dataColumns = (columns.getD c.dataColumns).map σ := by
      cases columns with
      | none => exact ren_dataColumns h
      | some l => rfl
    have hg : (renamed σ c).samples.getMany ((columns.getD c.dataColumns).map σ) = c.samples.getMany (columns.getD c.dataColumns) :=
      ren_getMany h.inj c.samples _
    simp only [Chain.getCovariance, hd, hg, ren_weights h]
    cases c.samples.getMany (columns.getD c.dataColumns) with
    | error e => rfl
    | ok X =>
      cases c.weights with
      | error e => rfl
      | ok w =>
        change (npCov X w >>= _) = _ <$> (npCov X w >>= _)
        cases npCov X w <;> rfl
  refine ⟨hcov, ?_⟩
  simp only [Chain.getCorrelation, hcov]
  cases c.getCovariance columns with
  | error e => rfl
  | ok m =>
    obtain ⟨cols, arr⟩ := m
    cases arr <;> rfl

/-- **C131, partial** (comparisons). AIC, BIC and DIC do not look at the names. -/
theorem C131_criteria_partial (tie : List (List ℝ) → List ℝ → Nat) {σ : String → String} {cs : List (String × Chain ℝ)}
    (h : ∀ e ∈ cs, Renames σ e.2.weightColumn e.2.posteriorColumn) :
    aic (cs.map fun e => (e.1, renamed σ e.2)) = aic cs ∧ bic (cs.map fun e => (e.1, renamed σ e.2)) = bic cs ∧
    dic tie (cs.map fun e => (e.1, renamed σ e.2)) = dic tie cs := by
  have loop : ∀ f : Chain ℝ → Res (Option (Flt ℝ)), (∀ e ∈ cs, f (renamed σ e.2) = f e.2) →
      criterionLoop f (cs.map fun e => (e.1, renamed σ e.2)) = criterionLoop f cs := by
    intro f hf
    clear h
    induction cs with
    | nil => rfl
    | cons e es ih =>
      simp only [List.map_cons, criterionLoop, hf e (by simp), ih fun d hd => hf d (List.mem_cons_of_mem _ hd)]
  refine ⟨?_, ?_, ?_⟩
  · unfold aic
    rw [loop _ fun e he => ?_]
    simp only [Chain.aicValue, ren_logPosterior (h e he)]
    rfl
  · unfold bic
    rw [loop _ fun e he => ?_]
    simp only [Chain.bicValue, ren_logPosterior (h e he)]
    rfl
  · unfold dic
    rw [loop _ fun e he => ?_]
    simp only [Chain.dicValue, ren_logPosterior (h e he), ren_data (h e he), ren_weights (h e he)]
    rfl

/-- **C131, partial** (best point). The maximum posterior point is the same, with its coordinates under the new names. -/
theorem C131_best_point_partial {σ : String → String} {c : Chain ℝ} (h : Renames σ c.weightColumn c.posteriorColumn) :
    (renamed σ c).maxPosteriorPoint = (Option.map fun b => ⟨b.logPosterior, b.coordinate.map fun x => (σ x.1, x.2)⟩) <$> c.maxPosteriorPoint := by
  simp only [Chain.maxPosteriorPoint, ren_logPosterior h, ren_plottingColumns h]
  cases c.logPosterior with
  | none => rfl
  | some p =>
    simp only
    cases argmax p with
    | none => rfl
    | some a =>
      simp only
      change (match c.samples.positions (.int a) with | [] => _ | [i] => _ | _ => _) = _
      cases c.samples.positions (.int a) with
      | nil => rfl
      | cons i is =>
        cases is with
        | cons j js => rfl
        | nil =>
          simp only
          have hr : (renamed σ c).samples.row i = (c.samples.row i).map fun e => (σ e.1, e.2) := ren_row σ c.samples i
          have hl := lookup_ren h.inj (c.samples.row i) c.posteriorColumn
          rw [h.posterior] at hl
          have hpc : (renamed σ c).posteriorColumn = c.posteriorColumn := rfl
          rw [hr, hpc, hl]
          cases (c.samples.row i).lookup c.posteriorColumn with
          | none => rfl
          | some lp =>
            have hne : ∀ n, σ n = c.posteriorColumn ↔ n = c.posteriorColumn := fun n => by
              conv_lhs => rw [← h.posterior]
              exact h.inj.eq_iff
            simp only [List.filter_map, Functor.map, Except.map, Option.map_some]
            have h1 : ((fun e : String × ℝ => decide (e.1 ≠ c.posteriorColumn)) ∘ fun e : String × ℝ => (σ e.1, e.2)) =
                fun e : String × ℝ => decide (e.1 ≠ c.posteriorColumn) := by
              funext e
              simp [hne]
            have h2 : ((fun e : String × ℝ => decide (e.1 ∈ c.plottingColumns.map σ)) ∘ fun e : String × ℝ => (σ e.1, e.2)) =
                fun e : String × ℝ => decide (e.1 ∈ c.plottingColumns) := by
              funext e
              simp only [Function.comp_apply, mem_map_ren h.inj]
            rw [h1, h2]

/-- **C131, partial** (diagnostics). Gelman-Rubin and Geweke do not look at the names. -/
theorem C131_diagnostics_partial (spec : List ℝ → Flt ℝ) (normaltest : List (Flt ℝ) → Flt ℝ) (t first last t' : ℝ) {σ : String → String}
    {c : Chain ℝ} (h : Renames σ c.weightColumn c.posteriorColumn) :
    gelmanOne t (renamed σ c) = gelmanOne t c ∧
    gewekeOne spec normaltest first last t' (renamed σ c) = gewekeOne spec normaltest first last t' c := by
  refine ⟨?_, ?_⟩
  · simp only [gelmanOne, ren_data h]
    rfl
  · simp only [gewekeOne, ren_data h]
    rfl

/-- **C131, partial** (contours). The density over two parameters that contours are drawn of does not depend on their names. -/
theorem C131_density_partial (near : NearFn) {σ : String → String} {c : Chain ℝ} (h : Renames σ c.weightColumn c.posteriorColumn) (px py : String) :
    smoothedHistogram2d near (renamed σ c) (σ px) (σ py) = smoothedHistogram2d near c px py := by
  have h1 : ∀ x y w, bins2d (renamed σ c) x y w = bins2d c x y w := by
    intro x y w
    simp only [bins2d, ren_smooth, ren_bins]
    rfl
  have h2 : ∀ x y w bx b, kde2d near (renamed σ c) x y w bx b = kde2d near c x y w bx b := by
    intro x y w bx b
    simp only [kde2d, ren_cfg σ c (k := .kde) (by simp)]
    rfl
  simp only [smoothedHistogram2d, ren_get' h, ren_weights h, h1, h2, ren_smooth, ren_cfg σ c (k := .kde) (by simp)]
  rfl

/-- Exchanging two names that the library does not keep for itself is a change of names. -/
theorem swap_renames {p q wc pc : String} (hp : p ≠ wc ∧ p ≠ pc) (hq : q ≠ wc ∧ q ≠ pc) (rp : pyLower p ∉ Chain.reserved)
    (rq : pyLower q ∉ Chain.reserved) : Renames (Equiv.swap p q) wc pc := by
  refine ⟨(Equiv.swap p q).injective, Equiv.swap_apply_of_ne_of_ne hp.1.symm hq.1.symm, Equiv.swap_apply_of_ne_of_ne hp.2.symm hq.2.symm,
    fun n => ?_⟩
  change pyLower _ ∈ Chain.reserved ↔ pyLower _ ∈ Chain.reserved
  by_cases h1 : n = p
  · rw [h1, Equiv.swap_apply_left]
    exact iff_of_false rq rp
  · by_cases h2 : n = q
    · rw [h2, Equiv.swap_apply_right]
      exact iff_of_false rp rq
    · rw [Equiv.swap_apply_of_ne_of_ne h1 h2]

/-- Calling parameter `a` by the name `omega`: for every chain of the default columns. -/
example : Renames (Equiv.swap "a" "omega") "weight" "log_posterior" :=
  swap_renames (by decide) (by decide) (by decide +kernel) (by decide +kernel)

/-- Two samples of a parameter and a second one, without weights. -/
def namesArgs : Args ℚ where
  samples := ⟨[.int 0, .int 1], [(.str "a", [.fin 1, .fin 3]), (.str "b", [.fin 5, .fin (-1)])]⟩
  name := "n"

theorem names_chain : ∃ c, Chain.make namesArgs = .ok c ∧ c.dataColumns = ["a", "b"] ∧ c.samples.columns = ["a", "b", "weight"] ∧
    c.weightColumn = "weight" := by
  refine ⟨_, Chain.make_ok_iff.2 ⟨none, ⟨[.int 0, .int 1], [(.str "a", [.fin 1, .fin 3]), (.str "b", [.fin 5, .fin (-1)]),
      (.str "weight", [.fin 1, .fin 1])]⟩, { index := [.int 0, .int 1], cols := [("a", [1, 3]), ("b", [5, -1]), ("weight", [1, 1])] },
      { index := [.int 0, .int 1], cols := [("a", [1, 3]), ("b", [5, -1]), ("weight", [1, 1])] },
      by decide +kernel, by decide +kernel, rfl, by decide +kernel, by decide +kernel,
      by decide +kernel, by decide +kernel, by decide +kernel, by decide +kernel, by decide +kernel, rfl⟩, by decide +kernel, rfl, rfl⟩

/-- Called "Posteriors", parameter `a` of this chain is gone. -/
theorem C131_violated_witness : ∃ c c', Chain.make namesArgs = .ok c ∧ c.dataColumns = ["a", "b"] ∧
    Chain.make (renamedArgs (Equiv.swap "a" "Posteriors") namesArgs) = .ok c' ∧ c'.dataColumns = ["b"] ∧
    c'.samples.get "Posteriors" = c.samples.get "a" := by
  obtain ⟨c, hc, hd, hcol, hw⟩ := names_chain
  obtain ⟨c', h1, h2, h3⟩ := C131_violated hc (p := "a") (n := "Posteriors") (by rw [hd]; simp) (by decide +kernel) (by rw [hcol]; simp)
    (by rw [hw]; simp)
  refine ⟨c, c', hc, hd, h1, ?_, h2⟩
  rw [h3, hd]
  rfl

/-- The hypotheses of `C131_violated_weight` are met: `a` called "weight" is accepted as weights, `b` is rejected. -/
example : namesArgs.weightColumn = "weight" ∧ setting namesArgs .shiftParams = false ∧
    namesArgs.samples.cols.lookup (.str "weight") = none ∧ namesArgs.samples.cols.lookup (.str "a") = some [.fin 1, .fin 3] ∧
    (∃ c', Chain.make (renamedArgs (Equiv.swap "a" "weight") namesArgs) = .ok c' ∧ c'.dataColumns = ["b"]) ∧
    namesArgs.samples.cols.lookup (.str "b") = some [.fin 5, .fin (-1)] ∧ ∃ x ∈ [(Flt.fin 5 : Flt ℚ), .fin (-1)], x.gtZero = false := by
  refine ⟨rfl, rfl, by decide +kernel, by decide +kernel, ?_, by decide +kernel, by decide +kernel⟩
  have hs : renamedArgs (Equiv.swap "a" "weight") namesArgs =
      { samples := ⟨[.int 0, .int 1], [(.str "weight", [.fin 1, .fin 3]), (.str "b", [.fin 5, .fin (-1)])]⟩, name := "n" } := by
    simp only [renamedArgs, namesArgs, renamedTable, List.map_cons, List.map_nil]
    rw [Equiv.swap_apply_left, Equiv.swap_apply_of_ne_of_ne (by decide) (by decide)]
  rw [hs]
  exact ⟨_, Chain.make_ok_iff.2 ⟨none, ⟨[.int 0, .int 1], [(.str "weight", [.fin 1, .fin 3]), (.str "b", [.fin 5, .fin (-1)])]⟩,
      { index := [.int 0, .int 1], cols := [("weight", [1, 3]), ("b", [5, -1])] },
      { index := [.int 0, .int 1], cols := [("weight", [1, 3]), ("b", [5, -1])] },
      by decide +kernel, by decide +kernel, rfl, by decide +kernel, by decide +kernel,
      by decide +kernel, by decide +kernel, by decide +kernel, by decide +kernel, by decide +kernel, rfl⟩, by decide +kernel⟩

end CC
