import Verif.Props.Invariance

/-! # C39 from the constructor on: other row orders and weight normalisations, with `shift_params` or not -/

set_option linter.unusedSectionVars false

namespace CC
open Spec

section
variable {K : Type}

/-- A table with its rows in the order `p` (row labels move along). -/
def Spec.rawRows (p : List Nat) (f : RawFrame K) : RawFrame K :=
  { index := p.filterMap (f.index[·]?)
    cols := f.cols.map fun e => (e.1, p.filterMap (e.2[·]?)) }

/-- The table of a chain with its rows in the order `p`. -/
def Spec.frameRows (p : List Nat) (f : Frame K) : Frame K :=
  { index := p.filterMap (f.index[·]?)
    cols := f.cols.map fun e => (e.1, p.filterMap (e.2[·]?)) }

theorem reordered_samples (c : Chain K) (p : List Nat) : (reordered c p).samples = frameRows p c.samples := rfl

theorem filterMap_map_get {α β : Type} (g : α → β) (p : List Nat) (v : List α) :
    p.filterMap ((v.map g)[·]?) = (p.filterMap (v[·]?)).map g := by
  induction p with
  | nil => rfl
  | cons i p ih =>
    simp only [List.filterMap_cons, List.getElem?_map]
    cases hv : v[i]? with
    | none => simpa [hv] using ih
    | some x => simpa [hv] using ih

theorem rawRows_toRaw (p : List Nat) (f : Frame K) : rawRows p f.toRaw = (frameRows p f).toRaw := by
  simp only [rawRows, frameRows, Frame.toRaw, RawFrame.mk.injEq, List.map_map, true_and]
  refine List.map_congr_left fun e _ => ?_
  simp only [Function.comp_apply, filterMap_map_get]

theorem lookup_map_snd {α β γ : Type} [BEq α] (g : β → γ) (l : List (α × β)) (a : α) :
    (l.map fun e => (e.1, g e.2)).lookup a = (l.lookup a).map g := by
  induction l with
  | nil => rfl
  | cons e l ih =>
    obtain ⟨x, y⟩ := e
    simp only [List.map_cons, List.lookup_cons]
    cases a == x <;> simp [ih]

theorem frameRows_get (p : List Nat) (f : Frame K) (n : String) :
    (frameRows p f).get n = (f.get n).map fun v => p.filterMap (v[·]?) := by
  simp only [Frame.get, frameRows, lookup_map_snd (fun v : List K => p.filterMap (v[·]?))]
  cases f.cols.lookup n <;> rfl

theorem frameRows_columns (p : List Nat) (f : Frame K) : (frameRows p f).columns = f.columns := by
  simp [Frame.columns, frameRows, List.map_map, Function.comp_def]

end

section
variable {K : Type} [Field K] [LinearOrder K]

theorem all_perm {α : Type} {l l' : List α} (h : l.Perm l') (q : α → Bool) : l.all q = l'.all q := by
  rw [Bool.eq_iff_iff, List.all_eq_true, List.all_eq_true]
  exact ⟨fun H x hx => H x (h.mem_iff.2 hx), fun H x hx => H x (h.mem_iff.1 hx)⟩

theorem filterMap_replicate {α : Type} {p : List Nat} {n : Nat} (hp : p.Perm (List.range n)) (x : α) :
    p.filterMap ((List.replicate n x)[·]?) = List.replicate n x := by
  have h := filterMap_getElem_perm (v := List.replicate n x) (p := p) (by simpa using hp)
  exact List.perm_replicate.1 h

theorem addWeights_rows {f : RawFrame K} (hwf : f.WF) (wc : String) {p : List Nat}
    (hp : p.Perm (List.range f.index.length)) :
    addWeights (rawRows p f) wc = (addWeights f wc).map (rawRows p) := by
  have hlk : (rawRows p f).cols.lookup (.str wc) =
      (f.cols.lookup (.str wc)).map fun v => p.filterMap (v[·]?) :=
    lookup_map_snd (fun v : List (Flt K) => p.filterMap (v[·]?)) _ _
  have hil : (rawRows p f).index.length = f.index.length := (filterMap_getElem_perm hp).length_eq
  unfold addWeights
  rw [hlk]
  cases hw : f.cols.lookup (.str wc) with
  | none =>
    simp only [Option.map_none]
    by_cases h : wc = "weight"
    · rw [if_pos h, if_pos h, hil]
      simp [Except.map, rawRows, filterMap_replicate hp]
    · rw [if_neg h, if_neg h]; rfl
  | some w =>
    have hl : w.length = f.index.length := hwf.2 _ (lookup_mem hw)
    simp only [Option.map_some]
    rw [all_perm (filterMap_getElem_perm (by rw [hl]; exact hp)) Flt.gtZero]
    by_cases h : w.all Flt.gtZero = true
    · rw [if_pos h, if_pos h]; rfl
    · rw [if_neg h, if_neg h]; rfl

theorem checkColumns_error {f : RawFrame K} {e : Err} (h : checkColumns f = .error e) : e = .validation := by
  unfold checkColumns at h
  cases hm : f.cols.mapM checkColumn with
  | ok v => rw [hm] at h; cases h
  | error e' =>
    rw [hm] at h
    cases h
    revert hm
    generalize f.cols = l
    induction l with
    | nil => intro h; cases h
    | cons x l ih =>
      intro h
      rw [List.mapM_cons] at h
      cases hx : checkColumn x with
      | error e'' =>
        rw [hx] at h
        cases h
        unfold checkColumn at hx
        split at hx
        · cases hx; rfl
        · split at hx
          · cases hx; rfl
          · cases hx
      | ok y =>
        rw [hx] at h
        cases hl : l.mapM checkColumn with
        | error e'' => rw [hl] at h; cases h; exact ih hl
        | ok ys => rw [hl] at h; cases h

theorem checkColumns_rows {f : RawFrame K} (hl : ∀ c ∈ f.cols, c.2.length = f.index.length) {p : List Nat}
    (hp : p.Perm (List.range f.index.length)) :
    checkColumns (rawRows p f) = (checkColumns f).map (frameRows p) := by
  cases h : checkColumns f with
  | ok g =>
    rw [checkColumns_ok_iff] at h
    subst h
    rw [rawRows_toRaw]
    exact checkColumns_ok_iff.2 rfl
  | error e =>
    have he := checkColumns_error h
    subst he
    cases h' : checkColumns (rawRows p f) with
    | error e' => rw [checkColumns_error h']; rfl
    | ok g =>
      exfalso
      have h2 := checkColumns_isOk.1 ⟨g, h'⟩
      have : ∃ g, checkColumns f = .ok g := by
        refine checkColumns_isOk.2 fun e he => ?_
        obtain ⟨h3, h4⟩ := h2 (e.1, p.filterMap (e.2[·]?)) (List.mem_map.2 ⟨e, he, rfl⟩)
        refine ⟨h3, fun v hv => h4 v ?_⟩
        exact (filterMap_getElem_perm (by rw [hl e he]; exact hp)).mem_iff.2 hv
      obtain ⟨g', hg'⟩ := this
      rw [h] at hg'
      cases hg'

theorem dot_zip (x w : List K) : dot x w = ((x.zip w).map fun q => q.1 * q.2).sum := by
  rw [dot, List.zip, List.map_zipWith]

theorem average_rows {x w : List K} (hl : w.length = x.length) {p : List Nat}
    (hp : p.Perm (List.range x.length)) :
    average (p.filterMap (x[·]?)) (p.filterMap (w[·]?)) = average x w := by
  have h1 : (p.filterMap (w[·]?)).sum = w.sum := (filterMap_getElem_perm (by rw [hl]; exact hp)).sum_eq
  have h2 : dot (p.filterMap (x[·]?)) (p.filterMap (w[·]?)) = dot x w := by
    rw [dot_zip, dot_zip, filterMap_zip p x w hl]
    refine ((filterMap_getElem_perm ?_).map _).sum_eq
    simpa [hl] using hp
  simp only [average, h1, h2]

theorem frameRows_set (p : List Nat) (f : Frame K) (n : String) (v : List K) :
    (frameRows p f).set n (p.filterMap (v[·]?)) = frameRows p (f.set n v) := by
  simp only [frameRows, Frame.set, Frame.mk.injEq, List.map_map, true_and]
  refine List.map_congr_left fun e _ => ?_
  simp only [Function.comp_apply]
  split <;> rfl

theorem shiftColumn_rows {f : Frame K} (hf : f.WF) (wc n : String) {p : List Nat}
    (hp : p.Perm (List.range f.index.length)) :
    shiftColumn wc (frameRows p f) n = (shiftColumn wc f n).map (frameRows p) := by
  unfold shiftColumn
  rw [frameRows_get, frameRows_get]
  cases hw : f.get wc with
  | error e => rfl
  | ok w =>
    cases hx : f.get n with
    | error e => rfl
    | ok x =>
      have hxl : x.length = f.index.length := hf.2 _ (get_mem hx)
      have hwl : w.length = f.index.length := hf.2 _ (get_mem hw)
      have ha := average_rows (x := x) (w := w) (hwl.trans hxl.symm) (p := p) (by rw [hxl]; exact hp)
      change (average (p.filterMap (x[·]?)) (p.filterMap (w[·]?)) >>= fun m =>
        (pure ((frameRows p f).set n ((p.filterMap (x[·]?)).map (· - m))) : Res (Frame K))) =
        Except.map (frameRows p) (average x w >>= fun m => pure (f.set n (x.map (· - m))))
      rw [ha]
      cases average x w with
      | error e => rfl
      | ok m =>
        change Except.ok ((frameRows p f).set n ((p.filterMap (x[·]?)).map (· - m))) =
          Except.ok (frameRows p (f.set n (x.map (· - m))))
        rw [← filterMap_map_get, frameRows_set]

theorem shiftFold_rows (wc : String) {p : List Nat} (ns : List String) {f : Frame K} (hf : f.WF)
    (hp : p.Perm (List.range f.index.length)) :
    ns.foldlM (shiftColumn wc) (frameRows p f) = (ns.foldlM (shiftColumn wc) f).map (frameRows p) := by
  induction ns generalizing f with
  | nil => rfl
  | cons n ns ih =>
    rw [List.foldlM_cons, List.foldlM_cons, shiftColumn_rows hf wc n hp]
    cases hg : shiftColumn wc f n with
    | error e => rfl
    | ok g =>
      obtain ⟨h1, h2⟩ := shiftColumn_WF hf hg
      exact ih h1 (by rw [h2]; exact hp)

theorem shiftIf_rows (b : Bool) (wc : String) {p : List Nat} {f : Frame K} (hf : f.WF)
    (hp : p.Perm (List.range f.index.length)) :
    shiftIf b wc (frameRows p f) = (shiftIf b wc f).map (frameRows p) := by
  cases b
  · rfl
  · simp only [shiftIf, if_true, shiftParams, frameRows_columns]
    exact shiftFold_rows wc _ hf hp

theorem empty_rows {f : RawFrame K} {p : List Nat} (hp : p.Perm (List.range f.index.length)) :
    (rawRows p f).empty = f.empty := by
  have hil : (rawRows p f).index.length = f.index.length := (filterMap_getElem_perm hp).length_eq
  have h1 : (rawRows p f).index.isEmpty = f.index.isEmpty := by
    rw [Bool.eq_iff_iff, List.isEmpty_iff_length_eq_zero, List.isEmpty_iff_length_eq_zero, hil]
  simp only [RawFrame.empty, h1]
  simp [rawRows]

/-- The constructor on a table with its rows in another order: the chain with its rows in that order, or
the same error. -/
theorem make_reordered [IsStrictOrderedRing K] (a : Args K) (hwf : a.samples.WF) (p : List Nat)
    (hp : p.Perm (List.range a.samples.index.length)) :
    Chain.make { a with samples := rawRows p a.samples } = (Chain.make a).map (reordered · p) := by
  unfold Chain.make
  simp only [empty_rows hp, addWeights_rows hwf a.weightColumn hp, Args.constraintsOk]
  cases validateColor ((Cfg.default K).apply a.config .color) with
  | error e => rfl
  | ok col =>
    simp only [bind, Except.bind, ensure]
    generalize (((Cfg.default K).apply a.config).constraintsOk && _) = b1
    cases b1
    · rfl
    generalize a.samples.empty = b2
    cases b2
    swap
    · rfl
    simp only [if_true, Bool.not_false]
    cases hr : addWeights a.samples a.weightColumn with
    | error e => rfl
    | ok raw =>
      obtain ⟨hrw, hri⟩ := addWeights_WF hwf hr
      have hpr : p.Perm (List.range raw.index.length) := by rw [hri]; exact hp
      simp only [Except.map, checkColumns_rows hrw.2 hpr]
      cases hc : checkColumns raw with
      | error e => rfl
      | ok f0 =>
        have hraw := checkColumns_ok_iff.1 hc
        have hf0 : f0.WF := toRaw_WF.1 (hraw ▸ hrw)
        have hpf : p.Perm (List.range f0.index.length) := by
          have : f0.index = raw.index := by rw [hraw]; rfl
          rw [this]; exact hpr
        simp only [Except.map, shiftIf_rows _ a.weightColumn hf0 hpf]
        cases hs : shiftIf ((((Cfg.default K).apply a.config).set ⟨.color, col⟩) .shiftParams) a.weightColumn f0 with
        | error e => rfl
        | ok f =>
          have hfi : f.index = f0.index := by
            simp only [shiftIf] at hs
            split at hs
            · exact (shift_fold_other hs).2.1
            · cases hs; rfl
          have hlen : (frameRows p f).index.length = f.index.length :=
            (filterMap_getElem_perm (by rw [hfi]; exact hpf)).length_eq
          simp only [hlen, frameRows_columns]
          generalize (f.index.length % a.walkers.toNat == 0) = b3
          cases b3
          · rfl
          generalize Option.all (fun q => decide (q ∈ f.columns)) _ = b4
          cases b4
          · rfl
          generalize Option.all Flt.isFinite _ = b5
          cases b5
          · rfl
          generalize (!(resolveStatistics _ Key.multimodal && _)) = b6
          cases b6 <;> rfl

/-! ## Weights -/

/-- Multiplication of a double by a positive number. -/
def Spec.fltScale (k : K) : Flt K → Flt K
  | .fin x => .fin (k * x)
  | v => v

/-- The table the user passes with the weights multiplied by `k`. -/
def Spec.rawScale (wc : String) (k : K) (f : RawFrame K) : RawFrame K :=
  { f with cols := f.cols.map fun e => if e.1 = .str wc then (e.1, e.2.map (fltScale k)) else e }

/-- The table of a chain with the weights multiplied by `k`. -/
def Spec.frameScale (wc : String) (k : K) (f : Frame K) : Frame K :=
  { f with cols := f.cols.map fun e => if e.1 = wc then (e.1, e.2.map (k * ·)) else e }

theorem reweighted_samples (c : Chain K) (k : K) :
    (reweighted c k).samples = frameScale c.weightColumn k c.samples := rfl

theorem rawScale_toRaw (wc : String) (k : K) (f : Frame K) :
    rawScale wc k f.toRaw = (frameScale wc k f).toRaw := by
  simp only [rawScale, frameScale, Frame.toRaw, RawFrame.mk.injEq, List.map_map, true_and]
  refine List.map_congr_left fun e _ => ?_
  simp only [Function.comp_apply, ColLabel.str.injEq]
  by_cases h : e.1 = wc
  · simp [h, fltScale, Function.comp_def]
  · simp [h]

theorem frameScale_columns (wc : String) (k : K) (f : Frame K) : (frameScale wc k f).columns = f.columns := by
  simp only [Frame.columns, frameScale, List.map_map]
  refine List.map_congr_left fun e _ => ?_
  simp only [Function.comp_apply]
  split <;> rfl

theorem frameScale_get (wc : String) (k : K) (f : Frame K) (n : String) :
    (frameScale wc k f).get n = if n = wc then (f.get n).map (List.map (k * ·)) else f.get n := by
  simp only [frameScale, Frame.get]
  induction f.cols with
  | nil => simp [Except.map]
  | cons e es ih =>
    obtain ⟨m, v⟩ := e
    by_cases hm : m = wc
    · subst hm
      simp only [List.map_cons, if_true, List.lookup_cons]
      by_cases hn : n = m
      · subst hn; simp [Except.map]
      · have : (n == m) = false := by simpa using hn
        simp only [this, hn, if_false] at ih ⊢
        exact ih
    · simp only [List.map_cons, if_neg hm, List.lookup_cons]
      by_cases hn : n = m
      · subst hn; simp [hm]
      · have : (n == m) = false := by simpa using hn
        simp only [this]
        exact ih

theorem frameScale_set_ne {wc n : String} (h : n ≠ wc) (k : K) (f : Frame K) (v : List K) :
    (frameScale wc k f).set n v = frameScale wc k (f.set n v) := by
  simp only [frameScale, Frame.set, Frame.mk.injEq, List.map_map, true_and]
  refine List.map_congr_left fun e _ => ?_
  simp only [Function.comp_apply]
  by_cases h1 : e.1 = wc
  · have h2 : e.1 ≠ n := fun h2 => h (h2.symm.trans h1)
    have h3 : wc ≠ n := fun h => h2 (h1.trans h)
    simp [h1, h3]
  · by_cases h2 : e.1 = n <;> simp [h1, h2, h]

theorem frameScale_set_self (wc : String) (k : K) (f : Frame K) (v : List K) :
    (frameScale wc k f).set wc (v.map (k * ·)) = frameScale wc k (f.set wc v) := by
  simp only [frameScale, Frame.set, Frame.mk.injEq, List.map_map, true_and]
  refine List.map_congr_left fun e _ => ?_
  simp only [Function.comp_apply]
  by_cases h1 : e.1 = wc <;> simp [h1]

theorem dot_scale_right (x w : List K) (k : K) : dot x (w.map (k * ·)) = k * dot x w := by
  induction x generalizing w with
  | nil => simp [dot]
  | cons a x ih =>
    cases w with
    | nil => simp [dot]
    | cons b w =>
      rw [List.map_cons, dot_cons, dot_cons, ih]
      ring

theorem sum_scale (w : List K) (k : K) : (w.map (k * ·)).sum = k * w.sum := by
  induction w with
  | nil => simp
  | cons b w ih => rw [List.map_cons, List.sum_cons, List.sum_cons, ih]; ring

theorem average_scale_weights {k : K} (hk : k ≠ 0) (x w : List K) :
    average x (w.map (k * ·)) = average x w := by
  unfold average
  rw [sum_scale, dot_scale_right]
  by_cases h : w.sum = 0
  · simp [h]
  · rw [if_neg h, if_neg (mul_ne_zero hk h), mul_div_mul_left _ _ hk]

theorem average_scale_both {k : K} (hk : k ≠ 0) (w : List K) :
    average (w.map (k * ·)) (w.map (k * ·)) = (average w w).map (k * ·) := by
  rw [average_scale_weights hk]
  unfold average
  by_cases h : w.sum = 0
  · simp [h, Except.map]
  · rw [if_neg h, if_neg h, dot_comm, dot_scale_right]
    simp only [Except.map, mul_div_assoc]

theorem shiftColumn_scale {k : K} (hk : k ≠ 0) (wc n : String) (f : Frame K) :
    shiftColumn wc (frameScale wc k f) n = (shiftColumn wc f n).map (frameScale wc k) := by
  unfold shiftColumn
  rw [frameScale_get, frameScale_get, if_pos rfl]
  cases hw : f.get wc with
  | error e => rfl
  | ok w =>
    by_cases hn : n = wc
    · subst hn
      rw [if_pos rfl, hw]
      change (average (w.map (k * ·)) (w.map (k * ·)) >>= fun m =>
        (pure ((frameScale n k f).set n ((w.map (k * ·)).map (· - m))) : Res (Frame K))) =
        Except.map (frameScale n k) (average w w >>= fun m => pure (f.set n (w.map (· - m))))
      rw [average_scale_both hk]
      cases average w w with
      | error e => rfl
      | ok m =>
        change Except.ok ((frameScale n k f).set n ((w.map (k * ·)).map (· - k * m))) =
          Except.ok (frameScale n k (f.set n (w.map (· - m))))
        rw [← frameScale_set_self, List.map_map, List.map_map]
        congr 3
        funext x
        simp only [Function.comp_apply]
        ring
    · rw [if_neg hn]
      cases hx : f.get n with
      | error e => rfl
      | ok x =>
        change (average x (w.map (k * ·)) >>= fun m =>
          (pure ((frameScale wc k f).set n (x.map (· - m))) : Res (Frame K))) =
          Except.map (frameScale wc k) (average x w >>= fun m => pure (f.set n (x.map (· - m))))
        rw [average_scale_weights hk]
        cases average x w with
        | error e => rfl
        | ok m =>
          change Except.ok ((frameScale wc k f).set n (x.map (· - m))) =
            Except.ok (frameScale wc k (f.set n (x.map (· - m))))
          rw [frameScale_set_ne hn]

theorem shiftFold_scale {k : K} (hk : k ≠ 0) (wc : String) (ns : List String) (f : Frame K) :
    ns.foldlM (shiftColumn wc) (frameScale wc k f) =
      (ns.foldlM (shiftColumn wc) f).map (frameScale wc k) := by
  induction ns generalizing f with
  | nil => rfl
  | cons n ns ih =>
    rw [List.foldlM_cons, List.foldlM_cons, shiftColumn_scale hk wc n]
    cases hg : shiftColumn wc f n with
    | error e => rfl
    | ok g => exact ih g

theorem shiftIf_scale (b : Bool) {k : K} (hk : k ≠ 0) (wc : String) (f : Frame K) :
    shiftIf b wc (frameScale wc k f) = (shiftIf b wc f).map (frameScale wc k) := by
  cases b
  · rfl
  · simp only [shiftIf, if_true, shiftParams, frameScale_columns]
    exact shiftFold_scale hk wc _ f

variable [IsStrictOrderedRing K]

theorem fltScale_gtZero {k : K} (hk : 0 < k) (v : Flt K) : (fltScale k v).gtZero = v.gtZero := by
  cases v <;> simp [fltScale, Flt.gtZero, hk]

theorem lookup_rawScale (wc : String) (k : K) (f : RawFrame K) :
    (rawScale wc k f).cols.lookup (.str wc) = (f.cols.lookup (.str wc)).map (List.map (fltScale k)) := by
  simp only [rawScale]
  induction f.cols with
  | nil => rfl
  | cons e es ih =>
    obtain ⟨m, v⟩ := e
    by_cases hm : m = .str wc
    · subst hm; simp
    · have : (ColLabel.str wc == m) = false := by simpa using fun h => hm h.symm
      simp only [List.map_cons, if_neg hm, List.lookup_cons, this]
      exact ih

theorem addWeights_scale {k : K} (hk : 0 < k) (wc : String) {f : RawFrame K}
    (hm : ColLabel.str wc ∈ f.cols.map Prod.fst) :
    addWeights (rawScale wc k f) wc = (addWeights f wc).map (rawScale wc k) := by
  unfold addWeights
  rw [lookup_rawScale]
  have hs : (f.cols.lookup (.str wc)).isSome = true := (lookup_isSome_iff _ _).2 hm
  cases hw : f.cols.lookup (.str wc) with
  | none => rw [hw] at hs; cases hs
  | some w =>
    have : (w.map (fltScale k)).all Flt.gtZero = w.all Flt.gtZero := by
      rw [List.all_map]
      congr 1
      funext v
      exact fltScale_gtZero hk v
    simp only [Option.map_some, this]
    by_cases h : w.all Flt.gtZero = true
    · rw [if_pos h, if_pos h]; rfl
    · rw [if_neg h, if_neg h]; rfl

theorem checkColumns_scale (wc : String) (k : K) (f : RawFrame K) :
    checkColumns (rawScale wc k f) = (checkColumns f).map (frameScale wc k) := by
  cases h : checkColumns f with
  | ok g =>
    rw [checkColumns_ok_iff] at h
    subst h
    rw [rawScale_toRaw]
    exact checkColumns_ok_iff.2 rfl
  | error e =>
    have he := checkColumns_error h
    subst he
    cases h' : checkColumns (rawScale wc k f) with
    | error e' => rw [checkColumns_error h']; rfl
    | ok g =>
      exfalso
      have h2 := checkColumns_isOk.1 ⟨g, h'⟩
      have : ∃ g, checkColumns f = .ok g := by
        refine checkColumns_isOk.2 fun e he => ?_
        have h3 := h2 _ (List.mem_map.2 ⟨e, he, rfl⟩)
        by_cases hw : e.1 = .str wc
        · rw [if_pos hw] at h3
          refine ⟨h3.1, fun v hv => ?_⟩
          have := h3.2 (fltScale k v) (List.mem_map.2 ⟨v, hv, rfl⟩)
          cases v <;> simp_all [fltScale, Flt.isFinite]
        · rw [if_neg hw] at h3
          exact h3
      obtain ⟨g', hg'⟩ := this
      rw [h] at hg'
      cases hg'

/-- The constructor on a table with the given weights multiplied by a positive number: the chain with its
weights multiplied by it, or the same error. -/
theorem make_reweighted (a : Args K) {k : K} (hk : 0 < k)
    (hm : ColLabel.str a.weightColumn ∈ a.samples.cols.map Prod.fst) :
    Chain.make { a with samples := rawScale a.weightColumn k a.samples } =
      (Chain.make a).map (reweighted · k) := by
  have he : (rawScale a.weightColumn k a.samples).empty = a.samples.empty := by
    simp [RawFrame.empty, rawScale]
  unfold Chain.make
  simp only [he, addWeights_scale hk a.weightColumn hm, Args.constraintsOk]
  cases validateColor ((Cfg.default K).apply a.config .color) with
  | error e => rfl
  | ok col =>
    simp only [bind, Except.bind, ensure]
    generalize (((Cfg.default K).apply a.config).constraintsOk && _) = b1
    cases b1
    · rfl
    generalize a.samples.empty = b2
    cases b2
    swap
    · rfl
    simp only [if_true, Bool.not_false]
    cases hr : addWeights a.samples a.weightColumn with
    | error e => rfl
    | ok raw =>
      simp only [Except.map, checkColumns_scale]
      cases hc : checkColumns raw with
      | error e => rfl
      | ok f0 =>
        simp only [Except.map, shiftIf_scale _ hk.ne' a.weightColumn]
        cases hs : shiftIf ((((Cfg.default K).apply a.config).set ⟨.color, col⟩) .shiftParams) a.weightColumn f0 with
        | error e => rfl
        | ok f =>
          have hlen : (frameScale a.weightColumn k f).index = f.index := rfl
          simp only [hlen, frameScale_columns]
          generalize (f.index.length % a.walkers.toNat == 0) = b3
          cases b3
          · rfl
          generalize Option.all (fun q => decide (q ∈ f.columns)) _ = b4
          cases b4
          · rfl
          generalize Option.all Flt.isFinite _ = b5
          cases b5
          · rfl
          generalize (!(resolveStatistics _ Key.multimodal && _)) = b6
          cases b6 <;> rfl

end

/-! ## C39 -/

/-- **C39** (row order, from the constructor). A data set with its rows in another order is accepted
exactly when the data set is, with `shift_params` or not. Without KDE its chain then gives the same
summary of every column. -/
theorem C39_rows (kde : KdeFn) (a : Args ℝ) (hwf : a.samples.WF) (p : List Nat)
    (hp : p.Perm (List.range a.samples.index.length)) :
    (∀ e, Chain.make a = .error e → Chain.make { a with samples := rawRows p a.samples } = .error e) ∧
    ∀ c, Chain.make a = .ok c → ∃ c', Chain.make { a with samples := rawRows p a.samples } = .ok c' ∧
      (c.cfg .kde = (0 : ℝ) → ∀ col, summaryEntry kde c' col = summaryEntry kde c col) := by
  have h := make_reordered a hwf p hp
  refine ⟨fun e he => by rw [h, he]; rfl, fun c hc => ⟨reordered c p, by rw [h, hc]; rfl, fun hk col => ?_⟩⟩
  refine C39_row_order kde c ⟨a, hwf, hc⟩ col (.inl hk) p ?_
  rw [(make_WF hwf hc).2.1]
  exact hp

/-- **C39** (weights, from the constructor). A data set with its weights multiplied by a positive number
is accepted exactly when the data set is, with `shift_params` or not, and its chain gives the same
summary of every column but the weights. (With KDE: if the estimator is homogeneous in the weights.) -/
theorem C39_weights (kde : KdeFn) (a : Args ℝ) (hwf : a.samples.WF) (k : ℝ) (hk : 0 < k)
    (hm : ColLabel.str a.weightColumn ∈ a.samples.cols.map Prod.fst) :
    (∀ e, Chain.make a = .error e →
      Chain.make { a with samples := rawScale a.weightColumn k a.samples } = .error e) ∧
    ∀ c, Chain.make a = .ok c →
      ∃ c', Chain.make { a with samples := rawScale a.weightColumn k a.samples } = .ok c' ∧
      (c.cfg .kde = (0 : ℝ) ∨ KdeHomogeneous kde → ∀ col, col ≠ a.weightColumn →
        summaryEntry kde c' col = summaryEntry kde c col) := by
  have h := make_reweighted a hk hm
  refine ⟨fun e he => by rw [h, he]; rfl, fun c hc => ⟨reweighted c k, by rw [h, hc]; rfl, fun hkde col hcol => ?_⟩⟩
  refine C39_weight_scale kde c ⟨a, hwf, hc⟩ hkde k hk col ?_
  obtain ⟨_, _, _, _, _, _, _, _, _, _, _, _, _, _, rfl⟩ := Chain.make_ok_iff.1 hc
  exact hcol

/-- The hypotheses of both are met by a data set with weights whose marginal exists. -/
example (kde : KdeFn) (hk : KdeOk kde) (s : Stat) : ∃ c c₁ c₂ m, Chain.make (skewArgs s) = .ok c ∧
    smoothedHistogram kde c "x" false none = .ok m ∧
    Chain.make { skewArgs s with samples := rawRows [1, 0] (skewArgs s).samples } = .ok c₁ ∧
    summaryEntry kde c₁ "x" = summaryEntry kde c "x" ∧
    Chain.make { skewArgs s with samples := rawScale "weight" 5 (skewArgs s).samples } = .ok c₂ ∧
    summaryEntry kde c₂ "x" = summaryEntry kde c "x" := by
  obtain ⟨c, m, hc, hst, har, -, hsm, hw, -, hm, -⟩ := skew_chain kde hk s
  have hwf : (skewArgs s).samples.WF := by
    refine ⟨by simp [skewArgs, Frame.toRaw, skewFrame], ?_⟩
    simp [skewArgs, Frame.toRaw, skewFrame]
  have hk0 := (C07_accepted_chain_guarantees (skewArgs s) c hwf rfl hc).2.2.2.2.2.2.2.2 .kde (by simp) (by simp)
  obtain ⟨c₁, h1, h2⟩ := (C39_rows kde (skewArgs s) hwf [1, 0] (by
    change [1, 0].Perm (List.range 2); decide)).2 c hc
  obtain ⟨c₂, h3, h4⟩ := (C39_weights kde (skewArgs s) hwf 5 (by norm_num) (by
    simp [skewArgs, Frame.toRaw, skewFrame])).2 c hc
  exact ⟨c, c₁, c₂, m, hc, hm false, h1, h2 hk0 "x", h3, h4 (.inl hk0) "x" (by simp [skewArgs])⟩

end CC
