import Verif.Model.Asked
import Verif.Props.Request
import Verif.Props.Triangle

/-! # C91: requests as documented -/

namespace CC
open Spec

/-- The chain an entry of a request means, by the documentation: the one of that name, or the one at that index. -/
def Spec.docEntry (final : List (String × Chain ℝ)) : AskedChain → Option (Chain ℝ)
  | .name n => final.lookup n
  | .chain c => final.lookup c.name
  | .index i => if 0 ≤ i then (final.map Prod.snd)[i.toNat]? else none

/-- The chains a request means, by the documentation. -/
def Spec.docChains (final : List (String × Chain ℝ)) : AskedChains → Option (List (Chain ℝ))
  | .all => some (final.map Prod.snd)
  | .one a => (docEntry final a).map fun c => [c]
  | .list l => l.mapM (docEntry final)
  | .dict d => d.mapM fun e => final.lookup e.2.name

/-- The columns a request means, by the documentation, if `all` are the columns of the chains shown. -/
def Spec.docColumns (all : List String) : AskedColumns → List String
  | .all => all
  | .list l => l
  | .count n => all.take n.toNat

/-- Requests by lists of names and chains, or by dictionaries. -/
def Spec.ByLists : AskedChains → Prop
  | .all => True
  | .one _ => False
  | .list l => ∀ a ∈ l, ∀ i, a ≠ .index i
  | .dict _ => True

theorem dictGet_lookup (final : List (String × Chain ℝ)) (n : String) (c : Chain ℝ) :
    dictGet final n = .ok c ↔ final.lookup n = some c := by
  unfold dictGet
  cases final.lookup n <;> simp

theorem optionMapM_iff {α β : Type} {f : α → Option β} {l : List α} {r : List β} :
    l.mapM f = some r ↔ List.Forall₂ (fun a b => f a = some b) l r := by
  induction l generalizing r with
  | nil => simp [eq_comm]
  | cons a l ih =>
    rw [List.mapM_cons, List.forall₂_cons_left_iff]
    simp only [Option.bind_eq_bind, Option.bind_eq_some_iff, Option.pure_def, Option.some.injEq, ih]
    constructor
    · rintro ⟨b, hb, bs, hbs, rfl⟩
      exact ⟨b, bs, hb, hbs, rfl⟩
    · rintro ⟨b, bs, hb, hbs, rfl⟩
      exact ⟨b, hb, bs, hbs, rfl⟩

theorem visible_filter (l : List (Chain ℝ)) : (l.filter fun c => !c.skip) = visible false l := by
  rw [← visible_eq]
  simp

theorem askedChains_iff (final : List (String × Chain ℝ)) (req : AskedChains) (h : ByLists req) (cs : List (Chain ℝ)) :
    askedChains final req = .ok cs ↔ ∃ all, docChains final req = some all ∧ cs = visible false all := by
  cases req with
  | all =>
    rw [askedChains, (C55_chains final false cs).1]
    simp [docChains]
  | one a => exact h.elim
  | dict d =>
    rw [askedChains, (C55_chains final false cs).2.2]
    simp only [docChains, optionMapM_iff]
  | list l =>
    simp only [askedChains, bind_ok_iff, pure_ok_iff, docChains, visible_filter, mapM_ok_iff, optionMapM_iff]
    constructor
    · rintro ⟨all, h1, rfl⟩
      refine ⟨all, h1.imp fun a c hc => ?_, rfl⟩
      cases a with
      | name n => exact (dictGet_lookup _ _ _).1 hc
      | chain c => exact (dictGet_lookup _ _ _).1 hc
      | index i => cases hc
    · rintro ⟨all, h1, rfl⟩
      refine ⟨all, ?_, rfl⟩
      have h' : ∀ a ∈ l, ∀ i, a ≠ .index i := h
      clear h
      induction h1 with
      | nil => exact .nil
      | @cons a c l cs hac hl ih =>
        refine .cons ?_ (ih fun a ha => h' a (List.mem_cons_of_mem _ ha))
        cases a with
        | name n => exact (dictGet_lookup _ _ _).2 hac
        | chain c => exact (dictGet_lookup _ _ _).2 hac
        | index i => exact (h' _ List.mem_cons_self i rfl).elim

/-- **C91** (partial: requests by lists and dictionaries, columns by lists). What is shown is what the documentation says, in the
order of the request and without the chains that have nothing to draw; a request of something unknown raises. Missing: single
chains, indices and numbers of columns. -/
theorem C91_request_partial (cfg : PlotConfig) (final : List (String × Chain ℝ)) (req : AskedChains) (columns : AskedColumns)
    (wide : Bool) (hreq : ByLists req) (hcol : ∀ n, columns ≠ .count n) :
    (∀ b, askedBase cfg final req columns wide = .ok b →
      ∃ all, docChains final req = some all ∧ b.chains = visible false all ∧
        ∃ cols, FirstOrder (b.chains.flatMap Chain.plottingColumns) cols ∧ b.columns = docColumns cols columns) ∧
    (docChains final req = none → ∃ e, askedBase cfg final req columns wide = .error e) := by
  constructor
  · intro b h
    simp only [askedBase, bind_ok_iff, pure_ok_iff] at h
    obtain ⟨chains, hc, cols, hcols, ext, -, rfl⟩ := h
    obtain ⟨all, h1, h2⟩ := (askedChains_iff final req hreq chains).1 hc
    refine ⟨all, h1, h2, sanitiseColumns none chains, (C55_columns chains).1, ?_⟩
    cases columns with
    | all => cases hcols; rfl
    | list l => cases hcols; rfl
    | count n => exact (hcol n rfl).elim
  · intro hn
    cases hc : askedChains final req with
    | error e => exact ⟨e, by simp only [askedBase, hc, bind, Except.bind]⟩
    | ok cs =>
      obtain ⟨all, h1, -⟩ := (askedChains_iff final req hreq cs).1 hc
      rw [hn] at h1
      cases h1

/-- **C91** (violation). One chain asked for by its name, by its index or by itself: all chains are shown, whatever was asked for. -/
theorem C91_violated_one (cfg : PlotConfig) (final : List (String × Chain ℝ)) (a : AskedChain) (columns : AskedColumns) (wide : Bool)
    (b : PlottingBase) (h : askedBase cfg final (.one a) columns wide = .ok b) :
    b.chains = visible false (final.map Prod.snd) ∧
    (2 ≤ b.chains.length → ∀ all, docChains final (.one a) = some all → b.chains ≠ visible false all) := by
  simp only [askedBase, bind_ok_iff, pure_ok_iff] at h
  obtain ⟨chains, hc, cols, -, ext, -, rfl⟩ := h
  refine ⟨((C55_chains final false chains).1).1 hc, ?_⟩
  intro h2 all hall e
  simp only [docChains, Option.map_eq_some_iff] at hall
  obtain ⟨c, -, rfl⟩ := hall
  have : (visible false [c]).length ≤ 1 := List.length_filter_le ..
  simp only at h2 e
  rw [e] at h2
  omega

/-- **C91** (violation). An index in a list raises, and so does a number of columns. -/
theorem C91_violated_numbers (cfg : PlotConfig) (final : List (String × Chain ℝ)) (wide : Bool) :
    (∀ l columns b, (∃ i, .index i ∈ l) → askedBase cfg final (.list l) columns wide ≠ .ok b) ∧
    ∀ req n b, askedBase cfg final req (.count n) wide ≠ .ok b := by
  constructor
  · rintro l columns b ⟨i, hi⟩ h
    simp only [askedBase, askedChains, bind_ok_iff, pure_ok_iff] at h
    obtain ⟨_, ⟨all, hc, -⟩, -⟩ := h
    obtain ⟨c, -, hc⟩ := mapM_ok_mem hc hi
    cases hc
  · intro req n b h
    simp only [askedBase, bind_ok_iff] at h
    obtain ⟨_, -, cols, hcols, -⟩ := h
    cases hcols

/-- **C91**: the first name in a list that is not the name of a chain is reported as missing (KeyError), if the entries before it
are known. -/
theorem C91_unknown (cfg : PlotConfig) (final : List (String × Chain ℝ)) (pre post : List AskedChain) (a : AskedChain) (columns : AskedColumns)
    (wide : Bool) (hreq : ByLists (.list (pre ++ a :: post))) (hpre : ∀ e ∈ pre, (docEntry final e).isSome)
    (ha : docEntry final a = none) :
    askedBase cfg final (.list (pre ++ a :: post)) columns wide = .error .key := by
  have hk : ∀ e ∈ pre ++ a :: post, askedEntry final e = match docEntry final e with | some c => .ok c | none => .error .key := by
    intro e he
    cases e with
    | name n => simp only [askedEntry, dictGet, docEntry]; cases final.lookup n <;> rfl
    | chain c => simp only [askedEntry, dictGet, docEntry]; cases final.lookup c.name <;> rfl
    | index i => exact absurd rfl (hreq _ he i)
  have hm : (pre ++ a :: post).mapM (askedEntry final) = .error .key := by
    clear hreq
    induction pre with
    | nil =>
      rw [List.nil_append, List.mapM_cons, hk a (by simp), ha]
      rfl
    | cons e pre ih =>
      obtain ⟨c, hc⟩ := Option.isSome_iff_exists.1 (hpre e (by simp))
      rw [List.cons_append, List.mapM_cons, hk e (by simp), hc,
        ih (fun e he => hpre e (List.mem_cons_of_mem _ he)) (fun e he => hk e (List.mem_cons_of_mem _ he))]
      rfl
  simp only [askedBase, askedChains, hm]
  rfl

/-- Asking for a chain that was added, and one that was not. -/
example (c : Chain ℝ) : askedBase {} [("one", c)] (.list [.name "one", .name "two"]) .all false = .error .key :=
  C91_unknown _ _ [.name "one"] [] (.name "two") _ _ (by simp [ByLists]) (by simp [docEntry]) (by simp [docEntry, List.lookup])

theorem demo_drawn {c1 c2 : Chain ℝ} (h1 : DemoChain c1 singleFrame "one" true barKw)
    (h2 : DemoChain c2 pairFrame "cloud" false cloudKw) : visible false [c1, c2] = [c1, c2] := by
  rw [← visible_filter]
  have e1 : c1.skip = false := by
    unfold Chain.skip
    simp [show (c1.cfg .plotContour : Bool) = true by rw [h1.cfg]; rfl, h1.samples]
    rfl
  have e2 : c2.skip = false := by
    unfold Chain.skip
    simp [show (c2.cfg .plotCloud : Bool) = true by rw [h2.cfg]; rfl, h2.samples]
    rfl
  simp [e1, e2]

/-- Two chains; the one named `one` is asked for, and both are shown. The two can be asked for by a list in either order. -/
example : ∃ (final : List (String × Chain ℝ)) (c1 c2 : Chain ℝ) (b b' : PlottingBase) (cfg : PlotConfig),
    docChains final (.one (.name "one")) = some [c1] ∧
    askedBase cfg final (.one (.name "one")) (.list ["a", "b"]) true = .ok b ∧ b.chains = [c1, c2] ∧
    askedBase cfg final (.list [.name "cloud", .chain c1]) (.list ["a", "b"]) true = .ok b' ∧ b'.chains = [c2, c1] := by
  obtain ⟨c1, h1⟩ := gridSingle_exists
  obtain ⟨c2, h2⟩ := cloudPair_exists
  have hv := demo_drawn h1 h2
  have hv' : visible false [c2, c1] = [c2, c1] := by
    rw [← visible_filter] at hv ⊢
    have := List.filter_eq_self.1 hv
    exact List.filter_eq_self.2 fun c hc => this c (by simpa [or_comm] using hc)
  refine ⟨[("one", c1), ("cloud", c2)], c1, c2, ⟨[c1, c2], ["a", "b"], [("a", some (0, 1)), ("b", some (0, 10))], [], []⟩,
    ⟨[c2, c1], ["a", "b"], [("a", some (0, 1)), ("b", some (0, 10))], [], []⟩,
    { extents := [("a", 0, 1), ("b", 0, 10)] }, rfl, ?_, rfl, ?_, rfl⟩
  · have : askedChains [("one", c1), ("cloud", c2)] (.one (.name "one")) = .ok [c1, c2] :=
      ((C55_chains _ false _).1).2 hv.symm
    simp [askedBase, this, askedColumns, bind, Except.bind, pure, Except.pure, sanitiseColumns, customExtents, sanitiseBlinds]
  · have : askedChains [("one", c1), ("cloud", c2)] (.list [.name "cloud", .chain c1]) = .ok [c2, c1] := by
      rw [askedChains_iff _ _ (by simp [ByLists])]
      exact ⟨[c2, c1], by simp [docChains, docEntry, h1.name, List.lookup], hv'.symm⟩
    simp [askedBase, this, askedColumns, bind, Except.bind, pure, Except.pure, sanitiseColumns, customExtents, sanitiseBlinds]

end CC
