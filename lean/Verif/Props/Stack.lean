import Verif.Model.Stack
import Verif.Lemmas.Panels
import Verif.Lemmas.Draw
import Verif.Lemmas.PlotDemo
import Verif.Props.Titles
import Verif.Props.Thinning
import Verif.Props.Triangle
import Verif.Props.OtherColumns

/-! # C125: chains are stacked by their `zorder` -/

namespace CC
open Spec

/-- What satisfies `Q` is drawn after all that satisfies `P`. -/
def Spec.Above (l : List Layer) (P Q : Layer → Prop) : Prop := l.Pairwise fun a b => Q a → ¬P b

/-- The artists of a chain. -/
def Spec.Of (c : Chain ℝ) (a : Layer) : Prop := a.owner = some c.name

/-- The artists of truths. -/
def Spec.IsTruth (a : Layer) : Prop := a.kind = .truth

/-- The `zorder` of a chain. -/
def Spec.z (c : Chain ℝ) : Int := c.cfg .zorder

/-! ### sorting -/

theorem above_strict {l : List Layer} {P Q : Layer → Prop} (h : ∀ a ∈ l, ∀ b ∈ l, P a → Q b → a.zorder < b.zorder) :
    Above (l.mergeSort fun a b => decide (a.zorder ≤ b.zorder)) P Q := by
  rw [Above, List.pairwise_iff_forall_sublist]
  intro a b hab hq hp
  have hs : (l.mergeSort fun a b => decide (a.zorder ≤ b.zorder)).Pairwise fun a b => decide (a.zorder ≤ b.zorder) = true :=
    List.pairwise_mergeSort (by simp; intros; omega) (by simp; intros; omega) l
  have h1 := List.pairwise_iff_forall_sublist.1 hs hab
  have ha : a ∈ l := List.mem_mergeSort.1 (hab.subset (by simp))
  have hb : b ∈ l := List.mem_mergeSort.1 (hab.subset (by simp))
  have := h b hb a ha hp hq
  simp only [decide_eq_true_eq] at h1
  omega

theorem above_stable {l : List Layer} {P Q : Layer → Prop} (hl : Above l P Q)
    (h : ∀ a ∈ l, ∀ b ∈ l, P a → Q b → a.zorder ≤ b.zorder) :
    Above (l.mergeSort fun a b => decide (a.zorder ≤ b.zorder)) P Q := by
  have ht : ∀ a b c : Layer, decide (a.zorder ≤ b.zorder) = true → decide (b.zorder ≤ c.zorder) = true →
      decide (a.zorder ≤ c.zorder) = true := by simp; intros; omega
  have hto : ∀ a b : Layer, (decide (a.zorder ≤ b.zorder) || decide (b.zorder ≤ a.zorder)) = true := by simp; intros; omega
  rw [Above, List.pairwise_iff_forall_sublist]
  intro a b hab hq hp
  have hs := List.pairwise_mergeSort ht hto l
  have h1 := List.pairwise_iff_forall_sublist.1 hs hab
  have ha : a ∈ l := List.mem_mergeSort.1 (hab.subset (by simp))
  have hb : b ∈ l := List.mem_mergeSort.1 (hab.subset (by simp))
  have h2 := h b hb a ha hp hq
  simp only [decide_eq_true_eq] at h1
  have he : b.zorder = a.zorder := by omega
  have hf : (l.mergeSort fun a b => decide (a.zorder ≤ b.zorder)).filter (fun x => decide (x.zorder = a.zorder)) =
      l.filter fun x => decide (x.zorder = a.zorder) := by
    symm
    apply List.Sublist.eq_of_length
    · have : (l.filter fun x => decide (x.zorder = a.zorder)).Sublist (l.mergeSort fun a b => decide (a.zorder ≤ b.zorder)) := by
        apply List.sublist_mergeSort ht hto _ List.filter_sublist
        rw [List.pairwise_iff_forall_sublist]
        intro x y hxy
        have hx : x ∈ l.filter fun x => decide (x.zorder = a.zorder) := hxy.subset (by simp)
        have hy : y ∈ l.filter fun x => decide (x.zorder = a.zorder) := hxy.subset (by simp)
        simp only [List.mem_filter, decide_eq_true_eq] at hx hy ⊢
        omega
      have := this.filter fun x => decide (x.zorder = a.zorder)
      rwa [List.filter_filter, show (fun x : Layer => decide (x.zorder = a.zorder) && decide (x.zorder = a.zorder)) =
        fun x => decide (x.zorder = a.zorder) by funext x; simp] at this
    · exact ((List.mergeSort_perm l _).symm.filter _).length_eq
  have h3 : [a, b].Sublist (l.filter fun x => decide (x.zorder = a.zorder)) := by
    rw [← hf]
    have := hab.filter fun x => decide (x.zorder = a.zorder)
    simpa [he] using this
  exact List.pairwise_iff_forall_sublist.1 hl (h3.trans List.filter_sublist) hq hp

/-! ### the artists of a chain -/

theorem find_chain {chains : List (Chain ℝ)} (hn : (chains.map (·.name)).Nodup) {c : Chain ℝ} (hc : c ∈ chains) :
    chains.find? (fun e => e.name = c.name) = some c := by
  induction chains with
  | nil => cases hc
  | cons d ds ih =>
    rw [List.map_cons, List.nodup_cons] at hn
    rw [List.find?_cons]
    rcases List.mem_cons.1 hc with rfl | hc
    · simp
    · have : d.name ≠ c.name := fun h => hn.1 (h ▸ List.mem_map_of_mem hc)
      simp [this, ih hn.2 hc]

/-- An artist is one of a truth or one of the chain its call is for. -/
theorem mem_callArtists {chains : List (Chain ℝ)} {call : Call} {a : Layer} (ha : a ∈ callArtists chains call) :
    (a.kind = .truth ∧ a.owner = none ∧ call.owner = none) ∨
    ∃ c ∈ chains, call.owner = some c.name ∧ a ∈ chainArtists c call := by
  have key : ownArtists chains call = [] ∨ ∃ c ∈ chains, call.owner = some c.name ∧
      ownArtists chains call = chainArtists c call := by
    unfold ownArtists
    cases ho : call.owner with
    | none => exact .inl rfl
    | some n =>
      cases hf : chains.find? (fun c => c.name = n) with
      | none => left; simp [hf]
      | some c =>
        right
        have h1 := List.find?_some hf
        simp only [decide_eq_true_eq] at h1
        exact ⟨c, List.mem_of_find?_eq_some hf, by rw [h1], by simp [hf]⟩
  cases call <;> first
    | (left; simp only [callArtists, List.mem_singleton] at ha; subst ha; exact ⟨rfl, rfl, rfl⟩)
    | (right
       rcases key with key | ⟨c, h1, h2, h3⟩
       · simp only [callArtists] at ha
         rw [key] at ha
         cases ha
       · simp only [callArtists] at ha
         rw [h3] at ha
         exact ⟨c, h1, h2, ha⟩)

theorem chainArtists_mem {c : Chain ℝ} {call : Call} {a : Layer} (h : a ∈ chainArtists c call) :
    a.owner = some c.name ∧ a.kind ≠ .truth ∧
    (a.kind = .cloud ∧ a.zorder = z c - 5 ∨ a.kind = .fill ∧ a.zorder = z c - 2 ∨ a.kind = .lines ∧ a.zorder = z c ∨
      a.kind = .labels ∧ a.zorder = z c + 2 ∨ a.kind = .point ∧ a.zorder = z c + 1 ∨ a.kind = .curve ∧ a.zorder = z c ∨
      a.kind = .shade ∧ a.zorder = z c ∨ a.kind = .walk ∧ a.zorder = 1 ∨ a.kind = .errorbar ∧ a.zorder = 2) := by
  cases call <;> simp only [chainArtists, List.mem_singleton, List.not_mem_nil, List.mem_append] at h
  case contour =>
    rcases h with (h | h) | h
    · split at h
      · rw [List.mem_singleton] at h; subst h; simp [z]
      · cases h
    · subst h; simp [z]
    · split at h
      · rw [List.mem_singleton] at h; subst h; simp [z]
      · cases h
  all_goals (subst h; simp [z])

theorem mem_artists {chains : List (Chain ℝ)} (hn : (chains.map (·.name)).Nodup) {c : Chain ℝ} (hc : c ∈ chains)
    {calls : List Call} {a : Layer} (ha : a ∈ calls.flatMap (callArtists chains)) (ho : Of c a) :
    ∃ call ∈ calls, call.owner = some c.name ∧ a ∈ chainArtists c call := by
  obtain ⟨call, hcall, ha⟩ := List.mem_flatMap.1 ha
  rcases mem_callArtists ha with ⟨-, h, -⟩ | ⟨d, hd, h1, h2⟩
  · rw [Of, h] at ho; cases ho
  · have : d.name = c.name := by
      rw [Of, (chainArtists_mem h2).1] at ho
      exact Option.some.inj ho
    have hdc : d = c := by
      have e1 := find_chain hn hd
      have e2 := find_chain hn hc
      rw [this, e2] at e1
      exact (Option.some.inj e1).symm
    subst hdc
    exact ⟨call, hcall, h1, h2⟩

/-- The calls draw no walks and no error bars. -/
def Plain (calls : List Call) : Prop := ∀ x ∈ calls, (∀ n v, x ≠ .walk n v) ∧ ∀ n p m l r, x ≠ .errorbar n p m l r

theorem chainArtists_plain {c : Chain ℝ} {call : Call} {a : Layer} (h : a ∈ chainArtists c call)
    (hp : (∀ n v, call ≠ .walk n v) ∧ ∀ n p m l r, call ≠ .errorbar n p m l r) :
    z c - 5 ≤ a.zorder ∧ a.zorder ≤ z c + 2 := by
  have h1 := (chainArtists_mem h).2.2
  have h2 : a.kind ≠ .walk ∧ a.kind ≠ .errorbar := by
    cases call <;> simp only [chainArtists, List.mem_singleton, List.not_mem_nil, List.mem_append] at h
    case contour =>
      rcases h with (h | h) | h
      · split at h
        · rw [List.mem_singleton] at h; subst h; simp
        · cases h
      · subst h; simp
      · split at h
        · rw [List.mem_singleton] at h; subst h; simp
        · cases h
    case walk => exact absurd rfl (hp.1 _ _)
    case errorbar => exact absurd rfl (hp.2 _ _ _ _ _)
    all_goals (subst h; simp)
  obtain ⟨h2, h3⟩ := h2
  rcases h1 with h | h | h | h | h | h | h | h | h <;> first | exact absurd h.1 h2 | exact absurd h.1 h3 | omega

theorem apart_calls {chains : List (Chain ℝ)} (hn : (chains.map (·.name)).Nodup) {c d : Chain ℝ} (hc : c ∈ chains)
    (hd : d ∈ chains) {calls : List Call} (hp : Plain calls) (hz : z c + 7 < z d) : Above (drawn chains calls) (Of c) (Of d) := by
  apply above_strict
  intro a ha b hb hac hbd
  obtain ⟨x, hx, -, hax⟩ := mem_artists hn hc ha hac
  obtain ⟨y, hy, -, hby⟩ := mem_artists hn hd hb hbd
  have h1 := (chainArtists_plain hax (hp x hx)).2
  have h2 := (chainArtists_plain hby (hp y hy)).1
  omega

/-! ### the calls of a panel -/

/-- A call that is for no chain, and draws at most a truth. -/
def Neutral (chains : List (Chain ℝ)) (truths : List (Truth ℝ)) (x : Call) : Prop :=
  x.owner = none ∧ ∀ a ∈ callArtists chains x, ∃ t ∈ truths, a.zorder = t.zorder

/-- A call for the chain `c`, or one that draws nothing. -/
def ForChain (G : Call → Prop) (c : Chain ℝ) (x : Call) : Prop :=
  (∀ chains, x.owner = none ∧ callArtists chains x = []) ∨ x.owner = some c.name ∧ G x

/-- The calls of a panel for the chains in turn, between others. -/
def InTurn (G : Call → Prop) (chains : List (Chain ℝ)) (truths : List (Truth ℝ)) (calls : List Call) : Prop :=
  ∃ (pre : List Call) (cs : List (Chain ℝ)) (parts : List (List Call)) (post : List Call), calls = pre ++ parts.flatten ++ post ∧
    (∀ x ∈ pre, Neutral chains truths x) ∧ (∀ x ∈ post, Neutral chains truths x) ∧ cs.Sublist chains ∧
    List.Forall₂ (fun c part => ∀ x ∈ part, ForChain G c x) cs parts

theorem stack_mem {α β : Type} {R : α → β → Prop} {as : List α} {bs : List β} (h : List.Forall₂ R as bs) {b : β} (hb : b ∈ bs) :
    ∃ a ∈ as, R a b := by
  induction h with
  | nil => cases hb
  | cons hab _ ih =>
    rcases List.mem_cons.1 hb with rfl | hb
    · exact ⟨_, by simp, hab⟩
    · obtain ⟨a, ha, h⟩ := ih hb
      exact ⟨a, by simp [ha], h⟩

theorem inTurn_pairwise {G : Call → Prop} {chains : List (Chain ℝ)} {truths : List (Truth ℝ)} {calls : List Call}
    (h : InTurn G chains truths calls) (hn : (chains.map (·.name)).Nodup) {c d : Chain ℝ} (hcd : [c, d].Sublist chains) :
    calls.Pairwise fun x y => x.owner = some d.name → y.owner ≠ some c.name := by
  obtain ⟨pre, cs, parts, post, rfl, h1, h2, h3, h4⟩ := h
  have hpre : ∀ l : List Call, (∀ x ∈ l, x.owner = none) →
      l.Pairwise fun x y => x.owner = some d.name → y.owner ≠ some c.name := by
    intro l hl
    rw [List.pairwise_iff_forall_sublist]
    intro x y hxy hx
    rw [hl x (hxy.subset (by simp))] at hx
    cases hx
  rw [List.pairwise_append, List.pairwise_append]
  refine ⟨⟨hpre pre fun x hx => (h1 x hx).1, ?_, ?_⟩, hpre post fun x hx => (h2 x hx).1, ?_⟩
  · have hne : (cs.map (·.name)).Pairwise fun a b => ¬(a = d.name ∧ b = c.name) := by
      refine List.Pairwise.sublist (h3.map _) ?_
      rw [List.pairwise_iff_forall_sublist]
      rintro a b hab ⟨rfl, rfl⟩
      have hcd' : [c.name, d.name].Sublist (chains.map (·.name)) := hcd.map fun e : Chain ℝ => e.name
      have hlt : ∀ {l : List String} {a b : String}, l.Nodup → [a, b].Sublist l → [b, a].Sublist l → False := by
        intro l a b hl
        induction l with
        | nil => intro h; cases h
        | cons x xs ih =>
          rw [List.nodup_cons] at hl
          intro h1 h2
          cases h1 with
          | cons _ h1 =>
            cases h2 with
            | cons _ h2 => exact ih hl.2 h1 h2
            | cons_cons _ h2 => exact hl.1 (h1.subset (by simp))
          | cons_cons _ h1 =>
            cases h2 with
            | cons _ h2 => exact hl.1 (h2.subset (by simp))
            | cons_cons _ h2 => exact hl.1 (h1.subset (by simp))
      exact hlt hn hcd' hab
    rw [List.pairwise_map] at hne
    clear h3
    induction h4 with
    | nil => simp
    | @cons e part es parts he _ ih =>
      rw [List.pairwise_cons] at hne
      rw [List.flatten_cons, List.pairwise_append]
      refine ⟨?_, ih hne.2, ?_⟩
      · rw [List.pairwise_iff_forall_sublist]
        intro x y hxy hx hy
        rcases he x (hxy.subset (by simp)) with h | h
        · rw [(h []).1] at hx; cases hx
        rcases he y (hxy.subset (by simp)) with h' | h'
        · rw [(h' []).1] at hy; cases hy
        rw [h.1] at hx
        rw [h'.1] at hy
        have hcd' : (c.name : String) = d.name := (Option.some.inj hy).symm.trans (Option.some.inj hx)
        have : [c.name, d.name].Nodup := (hcd.map fun e : Chain ℝ => e.name).nodup hn
        simp [hcd'] at this
      · intro x hx y hy hxd hyc
        rename_i hrest
        rcases he x hx with h | h
        · rw [(h []).1] at hxd; cases hxd
        obtain ⟨part', hp', hy⟩ := List.mem_flatten.1 hy
        obtain ⟨f, hf, hfp⟩ := stack_mem hrest hp'
        rcases hfp y hy with h' | h'
        · rw [(h' []).1] at hyc; cases hyc
        rw [h.1] at hxd
        rw [h'.1] at hyc
        exact hne.1 f hf ⟨Option.some.inj hxd, Option.some.inj hyc⟩
  · intro x hx y _ hxd
    rw [(h1 x hx).1] at hxd
    cases hxd
  · intro x _ y hy _ hyc
    rw [(h2 y hy).1] at hyc
    cases hyc

theorem inTurn_calls {G : Call → Prop} {chains : List (Chain ℝ)} {truths : List (Truth ℝ)} {calls : List Call}
    (h : InTurn G chains truths calls) : ∀ x ∈ calls, Neutral chains truths x ∨ x.owner ≠ none ∧ G x := by
  obtain ⟨pre, cs, parts, post, rfl, h1, h2, h3, h4⟩ := h
  intro x hx
  rcases List.mem_append.1 hx with hx | hx
  · rcases List.mem_append.1 hx with hx | hx
    · exact .inl (h1 x hx)
    · obtain ⟨part, hp, hx⟩ := List.mem_flatten.1 hx
      obtain ⟨c, -, hab⟩ := stack_mem h4 hp
      rcases hab x hx with h | h
      · exact .inl ⟨(h chains).1, by rw [(h chains).2]; simp⟩
      · exact .inr ⟨by rw [h.1]; simp, h.2⟩
  · exact .inl (h2 x hx)

theorem owner_artists {chains : List (Chain ℝ)} {x : Call} {a : Layer} (ha : a ∈ callArtists chains x) : a.owner = x.owner := by
  rcases mem_callArtists ha with ⟨-, h1, h2⟩ | ⟨c, -, h1, h2⟩
  · rw [h1, h2]
  · rw [h1, (chainArtists_mem h2).1]

/-- Of two chains the artists of the later one come later. -/
theorem inTurn_above {G : Call → Prop} {chains : List (Chain ℝ)} {truths : List (Truth ℝ)} {calls : List Call}
    (h : InTurn G chains truths calls) (hn : (chains.map (·.name)).Nodup) {c d : Chain ℝ} (hcd : [c, d].Sublist chains) :
    Above (calls.flatMap (callArtists chains)) (Of c) (Of d) := by
  have hne : c.name ≠ d.name := by
    have : [c.name, d.name].Nodup := (hcd.map fun e : Chain ℝ => e.name).nodup hn
    simpa using this
  rw [Above, List.pairwise_flatMap]
  constructor
  · intro x hx
    rw [List.pairwise_iff_forall_sublist]
    intro a b hab ha hb
    have h1 := owner_artists (hab.subset (by simp) : a ∈ callArtists chains x)
    have h2 := owner_artists (hab.subset (by simp) : b ∈ callArtists chains x)
    rw [Of] at ha hb
    rw [ha] at h1
    rw [hb, ← h1] at h2
    exact hne (Option.some.inj h2)
  · refine (inTurn_pairwise h hn hcd).imp ?_
    intro x y hxy a ha b hb had hbc
    rw [Of, owner_artists ha] at had
    rw [Of, owner_artists hb] at hbc
    exact hxy had hbc

/-- `d` is to be drawn over `c`: it has the greater `zorder`, or the same and comes later. -/
def Spec.Over (chains : List (Chain ℝ)) (c d : Chain ℝ) : Prop :=
  c ∈ chains ∧ d ∈ chains ∧ (z c < z d ∨ z c = z d ∧ [c, d].Sublist chains)

/-- Artists of one kind are stacked as they should be. -/
theorem kind_above {G : Call → Prop} {chains : List (Chain ℝ)} {truths : List (Truth ℝ)} {calls : List Call}
    (h : InTurn G chains truths calls) (hn : (chains.map (·.name)).Nodup) {c d : Chain ℝ} (hcd : Over chains c d)
    {k : LayerKind} (hk : k ≠ .walk ∧ k ≠ .errorbar) :
    Above (drawn chains calls) (fun a => Of c a ∧ a.kind = k) (fun a => Of d a ∧ a.kind = k) := by
  obtain ⟨hc, hd, hz⟩ := hcd
  have hzz : ∀ a ∈ calls.flatMap (callArtists chains), ∀ b ∈ calls.flatMap (callArtists chains), (Of c a ∧ a.kind = k) →
      (Of d b ∧ b.kind = k) → a.zorder - z c = b.zorder - z d := by
    intro a ha b hb hac hbd
    obtain ⟨x, -, -, hax⟩ := mem_artists hn hc ha hac.1
    obtain ⟨y, -, -, hby⟩ := mem_artists hn hd hb hbd.1
    have h1 := (chainArtists_mem hax).2.2
    have h2 := (chainArtists_mem hby).2.2
    rw [hac.2] at h1
    rw [hbd.2] at h2
    cases k <;> simp at h1 h2 hk <;> omega
  rcases hz with hz | ⟨hz, hs⟩
  · apply above_strict
    intro a ha b hb h1 h2
    have := hzz a ha b hb h1 h2
    omega
  · apply above_stable
    · exact (inTurn_above h hn hs).imp fun h h1 h2 => h h1.1 h2.1
    · intro a ha b hb h1 h2
      have := hzz a ha b hb h1 h2
      omega

/-- Only curves and their shading. -/
def IsBars (x : Call) : Prop := (∃ n p f xs ys, x = .marginal n p f xs ys) ∨ ∃ n p f lo hi, x = .shade n p f lo hi

theorem bars_above {chains : List (Chain ℝ)} {truths : List (Truth ℝ)} {calls : List Call}
    (h : InTurn IsBars chains truths calls) (hn : (chains.map (·.name)).Nodup) {c d : Chain ℝ} (hcd : Over chains c d) :
    Above (drawn chains calls) (Of c) (Of d) := by
  obtain ⟨hc, hd, hz⟩ := hcd
  have hzz : ∀ e ∈ chains, ∀ a ∈ calls.flatMap (callArtists chains), Of e a → a.zorder = z e := by
    intro e he a ha hae
    obtain ⟨x, hx, hxo, hax⟩ := mem_artists hn he ha hae
    rcases inTurn_calls h x hx with h1 | ⟨-, h1⟩
    · rw [h1.1] at hxo; cases hxo
    rcases h1 with ⟨_, _, _, _, _, rfl⟩ | ⟨_, _, _, _, _, rfl⟩
    · simp only [chainArtists, List.mem_singleton] at hax; subst hax; rfl
    · simp only [chainArtists, List.mem_singleton] at hax; subst hax; rfl
  rcases hz with hz | ⟨hz, hs⟩
  · apply above_strict
    intro a ha b hb h1 h2
    rw [hzz c hc a ha h1, hzz d hd b hb h2]
    exact hz
  · apply above_stable (inTurn_above h hn hs)
    intro a ha b hb h1 h2
    rw [hzz c hc a ha h1, hzz d hd b hb h2, hz]

/-- Truths above a chain. -/
theorem truths_above {G : Call → Prop} {chains : List (Chain ℝ)} {truths : List (Truth ℝ)} {calls : List Call}
    (h : InTurn G chains truths calls) (hn : (chains.map (·.name)).Nodup) {c : Chain ℝ} (hc : c ∈ chains) {m : Int}
    (hm : ∀ x, G x → ∀ a ∈ chainArtists c x, a.zorder ≤ m) (ht : ∀ t ∈ truths, m < t.zorder) :
    Above (drawn chains calls) (Of c) IsTruth := by
  apply above_strict
  intro a ha b hb hac hbt
  obtain ⟨x, hx, hxo, hax⟩ := mem_artists hn hc ha hac
  have h1 : a.zorder ≤ m := by
    rcases inTurn_calls h x hx with h1 | ⟨-, h1⟩
    · rw [h1.1] at hxo; cases hxo
    · exact hm x h1 a hax
  obtain ⟨y, hy, hby⟩ := List.mem_flatMap.1 hb
  rcases inTurn_calls h y hy with h2 | ⟨h2, -⟩
  · obtain ⟨t, htm, hbz⟩ := h2.2 b hby
    have := ht t htm
    omega
  · rcases mem_callArtists hby with ⟨-, -, h3⟩ | ⟨e, -, -, h3⟩
    · exact absurd h3 h2
    · exact absurd hbt (chainArtists_mem h3).2.1

/-! ### the panels of figures -/

/-- A call that draws nothing. -/
def Silent (x : Call) : Prop := ∀ chains : List (Chain ℝ), x.owner = none ∧ callArtists chains x = []

theorem silent_neutral {x : Call} (h : Silent x) (chains : List (Chain ℝ)) (truths : List (Truth ℝ)) : Neutral chains truths x :=
  ⟨(h chains).1, by rw [(h chains).2]; simp⟩

theorem setLim_silent {d : Dir} {e : Option (Option (ℝ × ℝ))} {c : Call} (h : setLim d e = .ok c) : Silent c := by
  obtain ⟨_, _, rfl, -⟩ := setLim_setup h
  exact fun _ => ⟨rfl, rfl⟩

theorem axisCalls_silent (cfg : PlotConfig) (blind : List String) (d : Dir) (p : String) (log shown : Bool) :
    ∀ c ∈ axisCalls cfg blind d p log shown, Silent c := by
  intro c hc
  unfold axisCalls at hc
  have hl : c = .logScale d ∨ c = .noTicks d ∨ c = .axisLabel d (getLabel cfg.labels p) ∨ c = .logLocator d ∨
      c = .maxNLocator d := by
    by_cases hb : p ∈ blind <;> cases log <;> cases shown <;> simp [hb] at hc <;> tauto
  rcases hl with rfl | rfl | rfl | rfl | rfl <;> exact fun _ => ⟨rfl, rfl⟩

theorem trianglePanel_silent {cfg : PlotConfig} {b : PlottingBase} {n i j : Nat} {p1 p2 : String} {s : List Call}
    (h : trianglePanel cfg b n i j p1 p2 = .ok s) : ∀ c ∈ s, Silent c := by
  unfold trianglePanel at h
  by_cases hij : i < j
  · rw [if_pos hij] at h
    cases h
    intro c hc
    simp only [List.mem_cons, List.not_mem_nil, or_false] at hc
    rcases hc with rfl | rfl | rfl <;> exact fun _ => ⟨rfl, rfl⟩
  · rw [if_neg hij] at h
    simp only [bind_ok_iff, pure_ok_iff] at h
    obtain ⟨ylim, hy, xlim, hx, rfl⟩ := h
    intro c hc
    simp only [List.mem_append, List.mem_singleton] at hc
    rcases hc with ((hc | hc) | hc) | rfl
    · exact axisCalls_silent _ _ _ _ _ _ c hc
    · exact axisCalls_silent _ _ _ _ _ _ c hc
    · unfold triangleYlim at hy
      split at hy
      · simp only [bind_ok_iff, pure_ok_iff] at hy
        obtain ⟨_, hy, rfl⟩ := hy
        rw [List.mem_singleton.1 hc]
        exact setLim_silent hy
      · cases hy
        cases hc
    · exact setLim_silent hx

theorem plotTruths_neutral (chains : List (Chain ℝ)) (filled : List String) (truths : List (Truth ℝ)) (px py : Option String) :
    ∀ c ∈ plotTruths filled truths px py, Neutral chains truths c := by
  intro c hc
  obtain ⟨t, ht, hc⟩ := List.mem_flatMap.1 hc
  simp only [truthCalls] at hc
  revert hc
  generalize px.bind (t.location.lookup ·) = vx
  generalize py.bind (t.location.lookup ·) = vy
  intro hc
  have key : ∀ x, c = .vline x t.kwargs ∨ c = .hline x t.kwargs → Neutral chains truths c := by
    rintro x (rfl | rfl) <;> exact ⟨rfl, fun a ha => ⟨t, ht, by rw [List.mem_singleton.1 ha]; rfl⟩⟩
  have key' : ∀ x y, c = .marker x y (t.markerKwargs filled) → Neutral chains truths c := by
    rintro x y rfl
    exact ⟨rfl, fun a ha => ⟨t, ht, by rw [List.mem_singleton.1 ha]; rfl⟩⟩
  generalize t.marker = tm at hc
  cases vx <;> cases vy <;> cases tm <;>
    simp only [List.nil_append, List.append_nil, List.cons_append, List.mem_cons, List.not_mem_nil, or_false] at hc <;>
    first
      | exact key _ (.inl hc)
      | exact key _ (.inr hc)
      | exact key' _ _ hc
      | (rcases hc with hc | hc
         · exact key _ (.inl hc)
         · exact key _ (.inr hc))

/-- Only clouds, contours and points. -/
def IsSurface (x : Call) : Prop := (∃ n px py xs ys cs, x = .cloud n px py xs ys cs) ∨
  (∃ n px py xs ys vs ls, x = .contour n px py xs ys vs ls) ∨ ∃ n px py u v, x = .point n px py u v

theorem surfaceChain_for {lib : Lib} {cfg : PlotConfig} {px py : String} {c : Chain ℝ} {r : List Call × List String}
    (h : surfaceChain lib cfg px py c = .ok r) : ∀ x ∈ r.1, ForChain IsSurface c x := by
  unfold surfaceChain at h
  split at h
  · cases h; simp
  simp only [bind_ok_iff] at h
  obtain ⟨⟨cloud, bars'⟩, h1, contour, h2, point, h3, h⟩ := h
  rw [pure_ok_iff] at h
  subst h
  intro x hx
  simp only [List.mem_append] at hx
  rcases hx with (hx | hx) | hx
  · unfold cloudCalls at h1
    split at h1
    · simp only [bind_ok_iff, pure_ok_iff] at h1
      obtain ⟨r, hr, e⟩ := h1
      cases e
      simp only [plotCloud, bind_ok_iff, pure_ok_iff] at hr
      obtain ⟨u, -, v, -, s, -, cd, -, rfl⟩ := hr
      rw [List.mem_singleton.1 hx]
      exact .inr ⟨rfl, .inl ⟨_, _, _, _, _, _, rfl⟩⟩
    · cases h1; cases hx
  · unfold contourCalls at h2
    split at h2
    · simp only [bind_ok_iff, pure_ok_iff] at h2
      obtain ⟨r, hr, rfl⟩ := h2
      simp only [plotContour, bind_ok_iff, pure_ok_iff] at hr
      obtain ⟨_, -, u, -, v, -, -, -, -, -, -, -, rfl⟩ := hr
      rw [List.mem_singleton.1 hx]
      exact .inr ⟨rfl, .inr (.inl ⟨_, _, _, _, _, _, _, rfl⟩)⟩
    · cases h2; cases hx
  · unfold pointCalls at h3
    split at h3
    · simp only [plotPoint, bind_ok_iff] at h3
      obtain ⟨m, -, h3⟩ := h3
      cases m with
      | none => cases h3; cases hx
      | some m =>
        simp only at h3
        revert h3
        generalize m.coordinate.lookup px = vx
        generalize m.coordinate.lookup py = vy
        intro h3
        cases vx <;> cases vy <;> cases h3
        · cases hx
        · cases hx
        · cases hx
        · rw [List.mem_singleton.1 hx]
          exact .inr ⟨rfl, .inr (.inr ⟨_, _, _, _, _, rfl⟩)⟩
    · cases h3; cases hx

theorem plotBars_for {lib : Lib} {cfg : PlotConfig} {p : String} {c : Chain ℝ} {flip summary : Bool}
    {r : List Call × ℝ} (h : plotBars lib cfg p c flip summary = .ok r) : ∀ x ∈ r.1, ForChain IsBars c x := by
  unfold plotBars at h
  simp only [bind_ok_iff] at h
  obtain ⟨⟨xs, ys⟩, -, hh, -, top, -, shade, hs, h⟩ := h
  rw [pure_ok_iff] at h
  subst h
  intro c' hc
  rcases List.mem_cons.1 hc with rfl | hc
  · exact .inr ⟨rfl, .inl ⟨_, _, _, _, _, rfl⟩⟩
  unfold barShadeIf at hs
  split at hs
  · unfold barShade at hs
    simp only [bind_ok_iff] at hs
    obtain ⟨b, -, hs⟩ := hs
    split at hs
    · simp only [bind_ok_iff] at hs
      obtain ⟨⟨ivs, s⟩, -, a, -, z, -, -, -, title, ht, hs⟩ := hs
      rw [pure_ok_iff] at hs
      subst hs
      rcases List.mem_append.1 hc with hc | hc
      · obtain ⟨_, -, rfl⟩ := List.mem_map.1 hc
        exact .inr ⟨rfl, .inr ⟨_, _, _, _, _, rfl⟩⟩
      · split at hc
        · cases hc
        · rw [List.mem_singleton.1 hc]
          exact .inl fun _ => ⟨rfl, rfl⟩
    · cases hs; cases hc
  · cases hs; cases hc

theorem surface_inTurn {lib : Lib} {cfg : PlotConfig} {chains : List (Chain ℝ)} {px py : String} {d : List Call} {bars : List String}
    (h : plotSurface lib cfg chains px py = .ok (d, bars)) {s : List Call} (hs : ∀ x ∈ s, Silent x) (truths : List (Truth ℝ)) :
    InTurn IsSurface chains truths (s ++ (d ++ plotTruths lib.filled truths (some px) (some py))) := by
  simp only [plotSurface, bind_ok_iff, pure_ok_iff, Prod.mk.injEq] at h
  obtain ⟨rs, h, rfl, -⟩ := h
  refine ⟨s, chains, rs.map Prod.fst, _, by rw [List.append_assoc, List.flatMap_def], fun x hx => silent_neutral (hs x hx) _ _,
    plotTruths_neutral _ _ _ _ _, List.Sublist.refl _, ?_⟩
  rw [List.forall₂_map_right_iff]
  exact (mapM_ok_iff.1 h).imp fun _ _ h => surfaceChain_for h

theorem topLim_silent (flip : Bool) (m : Option ℝ) : ∀ c ∈ topLim flip m, Silent c := by
  cases m with
  | none => simp [topLim]
  | some m =>
    intro c hc
    rw [topLim, List.mem_singleton] at hc
    subst hc
    exact fun _ => ⟨rfl, rfl⟩

theorem hist_inTurn {lib : Lib} {cfg : PlotConfig} {chains : List (Chain ℝ)} {p : String} {flip summary : Bool}
    {r : List Call × Option ℝ} (h : histChains lib cfg p flip summary chains none = .ok r) {s : List Call}
    (hs : ∀ x ∈ s, Silent x) (truths : List (Truth ℝ)) :
    InTurn IsBars chains truths (s ++ (histTruths lib truths flip p ++ r.1 ++ topLim flip r.2)) := by
  obtain ⟨bars, hb, hf⟩ := histChains_bars (calls := r.1) (m' := r.2) h
  refine ⟨s ++ histTruths lib truths flip p, _, bars, topLim flip r.2, by rw [hb]; simp only [List.append_assoc], ?_,
    fun x hx => silent_neutral (topLim_silent _ _ x hx) _ _, List.filter_sublist, hf.imp fun c b ⟨v, hv⟩ => plotBars_for hv⟩
  intro x hx
  rcases List.mem_append.1 hx with hx | hx
  · exact silent_neutral (hs x hx) _ _
  · unfold histTruths at hx
    split at hx <;> exact plotTruths_neutral _ _ _ _ _ x hx

theorem dist_inTurn {lib : Lib} {cfg : PlotConfig} {b : PlottingBase} {truths : List (Truth ℝ)} {p : String} {calls : List Call}
    (h : distPanel lib cfg b truths p = .ok calls) : InTurn IsBars b.chains truths calls := by
  simp only [distPanel, bind_ok_iff, pure_ok_iff] at h
  obtain ⟨xlim, hx, r, hr, ylim, hy, rfl⟩ := h
  obtain ⟨bars, hb, hf⟩ := distChains_bars (calls := r.1) (m' := r.2) hr
  refine ⟨[.noTicks .y] ++ (if p ∈ b.logScales then [.logScale .x] else []) ++
    [if p ∈ b.blind then .noTicks .x else if p ∈ b.logScales then .logLocator .x else .maxNLocator .x] ++ [xlim], _, bars,
    plotTruths lib.filled truths none (some p) ++ [ylim, .axisLabel .x p], by rw [hb]; simp only [List.append_assoc], ?_, ?_, List.filter_sublist, hf.imp fun c b ⟨v, hv⟩ => plotBars_for hv⟩
  · intro x hxm
    simp only [List.mem_append, List.mem_singleton] at hxm
    apply silent_neutral
    rcases hxm with ((hxm | hxm) | hxm) | hxm
    · subst hxm; exact fun _ => ⟨rfl, rfl⟩
    · split at hxm
      · rw [List.mem_singleton.1 hxm]; exact fun _ => ⟨rfl, rfl⟩
      · cases hxm
    · subst hxm
      split
      · exact fun _ => ⟨rfl, rfl⟩
      · split <;> exact fun _ => ⟨rfl, rfl⟩
    · subst hxm; exact setLim_silent hx
  · intro x hxm
    rcases List.mem_append.1 hxm with hxm | hxm
    · exact plotTruths_neutral _ _ _ _ _ x hxm
    · apply silent_neutral
      simp only [List.mem_cons, List.not_mem_nil, or_false] at hxm
      rcases hxm with rfl | rfl
      · unfold distYlim at hy
        split at hy <;> cases hy
        exact fun _ => ⟨rfl, rfl⟩
      · exact fun _ => ⟨rfl, rfl⟩

/-- Only walks. -/
def IsWalk (x : Call) : Prop := ∃ n v, x = .walk n v

theorem walk_inTurn {cfg : PlotConfig} {b : PlottingBase} {truths : List (Truth ℝ)} {p : String} {calls : List Call}
    (h : walkPanel cfg b truths p = .ok calls) : InTurn IsWalk b.chains truths calls := by
  simp only [walkPanel, bind_ok_iff, pure_ok_iff] at h
  obtain ⟨walks, hw, rfl⟩ := h
  refine ⟨[], b.chains, walks, truths.flatMap (walkTruth p) ++ (if p ∈ b.blind then [.noTicks .y] else []), by simp, by simp, ?_,
    List.Sublist.refl _, (mapM_ok_iff.1 hw).imp ?_⟩
  · intro x hx
    rcases List.mem_append.1 hx with hx | hx
    · obtain ⟨t, ht, hx⟩ := List.mem_flatMap.1 hx
      unfold walkTruth at hx
      split at hx
      · cases hx
      · rw [List.mem_singleton.1 hx]
        exact ⟨rfl, fun a ha => ⟨t, ht, by rw [List.mem_singleton.1 ha]; rfl⟩⟩
    · split at hx
      · rw [List.mem_singleton.1 hx]
        exact silent_neutral (fun _ => ⟨rfl, rfl⟩) _ _
      · cases hx
  · intro c part hp
    split at hp
    · simp only [bind_ok_iff] at hp
      obtain ⟨v, -, hp⟩ := hp
      simp only [plotWalk, bind_ok_iff, pure_ok_iff] at hp
      obtain ⟨lim, hl, -, -, rfl⟩ := hp
      intro x hx
      simp only [List.mem_append, List.mem_cons, List.not_mem_nil, or_false] at hx
      rcases hx with (hx | rfl | rfl | rfl) | hx
      · left
        unfold walkLim at hl
        split at hl
        · cases hl; cases hx
        · simp only [bind_ok_iff, pure_ok_iff] at hl
          obtain ⟨_, hl, rfl⟩ := hl
          rw [List.mem_singleton.1 hx]
          exact setLim_silent hl
      · exact .inl fun _ => ⟨rfl, rfl⟩
      · exact .inl fun _ => ⟨rfl, rfl⟩
      · exact .inr ⟨rfl, _, _, rfl⟩
      · left
        split at hx
        · simp only [List.mem_cons, List.not_mem_nil, or_false] at hx
          rcases hx with rfl | rfl <;> exact fun _ => ⟨rfl, rfl⟩
        · rw [List.mem_singleton.1 hx]
          exact fun _ => ⟨rfl, rfl⟩
    · cases hp; simp

theorem InTurn.mono {G G' : Call → Prop} {chains : List (Chain ℝ)} {truths : List (Truth ℝ)} {calls : List Call}
    (h : InTurn G chains truths calls) (hG : ∀ x, G x → G' x) : InTurn G' chains truths calls := by
  obtain ⟨pre, cs, parts, post, h0, h1, h2, h3, h4⟩ := h
  exact ⟨pre, cs, parts, post, h0, h1, h2, h3, h4.imp fun c part h x hx => (h x hx).imp id fun h => ⟨h.1, hG x h.2⟩⟩

theorem plot_inTurn {lib : Lib} {cfg : PlotConfig} {truths : List (Truth ℝ)} {b : PlottingBase} {fig : Fig}
    (h : plotBase lib cfg truths b = .ok fig) {i j : Nat} {calls : List Call} (hc : ((i, j), calls) ∈ fig.panels) :
    InTurn (fun x => IsSurface x ∨ IsBars x) b.chains truths calls ∧
      (cfg.plotHists = true → i = j → InTurn IsBars b.chains truths calls) := by
  obtain ⟨-, -, h⟩ := plot_cases h hc
  rcases h with ⟨hij, rfl⟩ | ⟨hlt, -, px, py, s, d, bars, -, -, hs, hd, rfl⟩ | ⟨hh, rfl, p, s, r, -, hs, hr, rfl⟩
  · have : InTurn IsBars b.chains truths [.frameOff, .noTicks .x, .noTicks .y] := by
      refine ⟨[.frameOff, .noTicks .x, .noTicks .y], [], [], [], rfl, ?_, by simp, List.nil_sublist _, .nil⟩
      intro x hx
      simp only [List.mem_cons, List.not_mem_nil, or_false] at hx
      rcases hx with rfl | rfl | rfl <;> exact silent_neutral (fun _ => ⟨rfl, rfl⟩) _ _
    exact ⟨this.mono fun _ => .inr, fun _ _ => this⟩
  · refine ⟨(surface_inTurn hd (trianglePanel_silent hs) truths).mono fun _ => .inl, ?_⟩
    intro hh hij
    rw [hh] at hlt
    simp only [if_true] at hlt
    omega
  · have := hist_inTurn hr (trianglePanel_silent hs) truths
    exact ⟨this.mono fun _ => .inr, fun _ _ => this⟩

theorem plain_of {chains : List (Chain ℝ)} {truths : List (Truth ℝ)} {calls : List Call}
    (h : InTurn (fun x => IsSurface x ∨ IsBars x) chains truths calls) : Plain calls := by
  intro x hx
  constructor
  · rintro n v rfl
    rcases inTurn_calls h _ hx with h1 | ⟨-, h1⟩
    · cases h1.1
    · rcases h1 with (⟨_, _, _, _, _, _, h⟩ | ⟨_, _, _, _, _, _, _, h⟩ | ⟨_, _, _, _, _, h⟩) | ⟨_, _, _, _, _, h⟩ | ⟨_, _, _, _, _, h⟩ <;>
        cases h
  · rintro n p m l r rfl
    rcases inTurn_calls h _ hx with h1 | ⟨-, h1⟩
    · cases h1.1
    · rcases h1 with (⟨_, _, _, _, _, _, h⟩ | ⟨_, _, _, _, _, _, _, h⟩ | ⟨_, _, _, _, _, h⟩) | ⟨_, _, _, _, _, h⟩ | ⟨_, _, _, _, _, h⟩ <;>
        cases h

/-! ### the theorems -/

/-- **C125** (`plot`). If the `zorder` of a chain exceeds that of another by more than 7, all of it is drawn over all of the other. -/
theorem C125_plot_apart {lib : Lib} {cfg : PlotConfig} {truths : List (Truth ℝ)} {b : PlottingBase} {fig : Fig}
    (h : plotBase lib cfg truths b = .ok fig) {i j : Nat} {calls : List Call} (hp : ((i, j), calls) ∈ fig.panels)
    (hn : (b.chains.map (·.name)).Nodup) {c d : Chain ℝ} (hc : c ∈ b.chains) (hd : d ∈ b.chains) (hz : z c + 7 < z d) :
    Above (drawn b.chains calls) (Of c) (Of d) :=
  apart_calls hn hc hd (plain_of (plot_inTurn h hp).1) hz

/-- **C125** (`plot`), partial. What is of the same kind - clouds, filled contours, contour lines, labels, points, curves, shading -
is stacked by `zorder`, and in the order of the chains where that is equal. Missing: different kinds on panels with two parameters, for
which it is false (`C125_violated_plot`). -/
theorem C125_plot_partial {lib : Lib} {cfg : PlotConfig} {truths : List (Truth ℝ)} {b : PlottingBase} {fig : Fig}
    (h : plotBase lib cfg truths b = .ok fig) {i j : Nat} {calls : List Call} (hp : ((i, j), calls) ∈ fig.panels)
    (hn : (b.chains.map (·.name)).Nodup) {c d : Chain ℝ} (hcd : Over b.chains c d) {k : LayerKind}
    (hk : k ≠ .walk ∧ k ≠ .errorbar) :
    Above (drawn b.chains calls) (fun a => Of c a ∧ a.kind = k) (fun a => Of d a ∧ a.kind = k) :=
  kind_above (plot_inTurn h hp).1 hn hcd hk

/-- **C125** (histograms of `plot`). All of the chain with the greater `zorder`, or of the later one where that is equal, is drawn over
all of the other. -/
theorem C125_histogram {lib : Lib} {cfg : PlotConfig} {truths : List (Truth ℝ)} {b : PlottingBase} {fig : Fig}
    (h : plotBase lib cfg truths b = .ok fig) (hh : cfg.plotHists = true) {i : Nat} {calls : List Call}
    (hp : ((i, i), calls) ∈ fig.panels) (hn : (b.chains.map (·.name)).Nodup) {c d : Chain ℝ} (hcd : Over b.chains c d) :
    Above (drawn b.chains calls) (Of c) (Of d) :=
  bars_above ((plot_inTurn h hp).2 hh rfl) hn hcd

theorem distributions_inTurn {lib : Lib} {cfg : PlotConfig} {truths : List (Truth ℝ)} {colWrap : Nat} {b : PlottingBase} {fig : Fig}
    (h : plotDistributionsBase lib cfg truths colWrap b = .ok fig) {ij : Nat × Nat} {calls : List Call}
    (hp : (ij, calls) ∈ fig.panels) : InTurn IsBars b.chains truths calls := by
  obtain ⟨-, -, h, -⟩ := distributions_panels h
  rcases (h ij calls hp).2 with ⟨-, rfl⟩ | ⟨-, h⟩
  · refine ⟨[.axisOff], [], [], [], rfl, ?_, by simp, List.nil_sublist _, .nil⟩
    intro x hx
    rw [List.mem_singleton.1 hx]
    exact silent_neutral (fun _ => ⟨rfl, rfl⟩) _ _
  · exact dist_inTurn h

/-- **C125** (`plot_distributions`). Likewise. -/
theorem C125_distributions {lib : Lib} {cfg : PlotConfig} {truths : List (Truth ℝ)} {colWrap : Nat} {b : PlottingBase} {fig : Fig}
    (h : plotDistributionsBase lib cfg truths colWrap b = .ok fig) {ij : Nat × Nat} {calls : List Call}
    (hp : (ij, calls) ∈ fig.panels) (hn : (b.chains.map (·.name)).Nodup) {c d : Chain ℝ} (hcd : Over b.chains c d) :
    Above (drawn b.chains calls) (Of c) (Of d) :=
  bars_above (distributions_inTurn h hp) hn hcd

theorem bars_le {c : Chain ℝ} {x : Call} (h : IsSurface x ∨ IsBars x) : ∀ a ∈ chainArtists c x, a.zorder ≤ z c + 2 := by
  intro a ha
  refine (chainArtists_plain ha ?_).2
  rcases h with (⟨_, _, _, _, _, _, rfl⟩ | ⟨_, _, _, _, _, _, _, rfl⟩ | ⟨_, _, _, _, _, rfl⟩) | ⟨_, _, _, _, _, rfl⟩ |
    ⟨_, _, _, _, _, rfl⟩ <;> exact ⟨fun _ _ h => (by cases h), fun _ _ _ _ _ h => (by cases h)⟩

/-- **C125** (truths). Truths whose `zorder` exceeds that of a chain by more than 2 - by default it is 100, and 10 for chains - are
drawn over all of the chain; on walks it is enough that it exceeds 1. -/
theorem C125_truths {truths : List (Truth ℝ)} {b : PlottingBase} {fig : Fig} (hn : (b.chains.map (·.name)).Nodup) {c : Chain ℝ}
    (hc : c ∈ b.chains) {ij : Nat × Nat} {calls : List Call} (hp : (ij, calls) ∈ fig.panels) :
    ((∃ lib cfg, plotBase lib cfg truths b = .ok fig) → (∀ t ∈ truths, z c + 2 < t.zorder) →
      Above (drawn b.chains calls) (Of c) IsTruth) ∧
    ((∃ lib cfg colWrap, plotDistributionsBase lib cfg truths colWrap b = .ok fig) → (∀ t ∈ truths, z c + 2 < t.zorder) →
      Above (drawn b.chains calls) (Of c) IsTruth) ∧
    ((∃ cfg, plotWalksBase cfg truths false false false b = .ok fig) → (∀ t ∈ truths, 1 < t.zorder) →
      Above (drawn b.chains calls) (Of c) IsTruth) := by
  refine ⟨?_, ?_, ?_⟩
  · rintro ⟨lib, cfg, h⟩ ht
    exact truths_above (plot_inTurn (i := ij.1) (j := ij.2) h hp).1 hn hc (fun x hx => bars_le hx) ht
  · rintro ⟨lib, cfg, colWrap, h⟩ ht
    exact truths_above (distributions_inTurn h hp) hn hc (fun x hx => bars_le (.inr hx)) ht
  · rintro ⟨cfg, h⟩ ht
    obtain ⟨post, hpost, extra, main, hf, hm, he⟩ := plotWalks_panels h
    have : extra = [] := by
      have : post = false := by
        cases post
        · rfl
        · simp at hpost
      rw [this] at he
      cases he
      rfl
    subst this
    rw [hf] at hp
    obtain ⟨e, he', heq⟩ := List.mem_map.1 hp
    cases heq
    have hmem : e.1 ∈ ([] ++ main) := by
      have := List.mem_map_of_mem (f := Prod.fst) he'
      rwa [List.zipIdx_map_fst] at this
    obtain ⟨p, -, hpw⟩ := stack_mem hm hmem
    refine truths_above (walk_inTurn hpw) hn hc (m := 1) ?_ ht
    rintro x ⟨n, v, rfl⟩ a ha
    rw [List.mem_singleton.1 ha]

theorem not_above {l : List Layer} {P Q : Layer → Prop} {a b : Layer} (ha : a ∈ l) (hb : b ∈ l) (hp : P a) (hq : Q b)
    (hab : b.zorder < a.zorder) : ¬Above (l.mergeSort fun a b => decide (a.zorder ≤ b.zorder)) P Q := by
  intro h
  have hr : Above (l.mergeSort fun a b => decide (a.zorder ≤ b.zorder)) (fun x => x = b) (fun x => x = a) := by
    apply above_strict
    rintro x - y - rfl rfl
    exact hab
  have h1 := List.mem_mergeSort (le := fun a b : Layer => decide (a.zorder ≤ b.zorder)).2 ha
  have h2 := List.mem_mergeSort (le := fun a b : Layer => decide (a.zorder ≤ b.zorder)).2 hb
  generalize l.mergeSort (fun a b => decide (a.zorder ≤ b.zorder)) = l' at *
  have hne : a ≠ b := by rintro rfl; omega
  obtain ⟨i, hi, rfl⟩ := List.mem_iff_getElem.1 h1
  obtain ⟨j, hj, rfl⟩ := List.mem_iff_getElem.1 h2
  rw [Above, List.pairwise_iff_getElem] at h hr
  rcases Nat.lt_trichotomy i j with hij | rfl | hij
  · exact hr i j hi hj hij rfl rfl
  · exact hne rfl
  · exact h j i hj hi hij hq hp

theorem mem_drawn {chains : List (Chain ℝ)} (hn : (chains.map (·.name)).Nodup) {c : Chain ℝ} (hc : c ∈ chains) {calls : List Call}
    {x : Call} (hx : x ∈ calls) (ho : x.owner = some c.name) {a : Layer} (ha : a ∈ chainArtists c x) :
    a ∈ calls.flatMap (callArtists chains) := by
  refine List.mem_flatMap.2 ⟨x, hx, ?_⟩
  have h1 : ownArtists chains x = chainArtists c x := by
    simp only [ownArtists, ho, Option.bind_some, find_chain hn hc]
  cases x <;> first | (simp only [callArtists]; rw [h1]; exact ha) | cases ho

/-- **C125** is violated on every panel with two parameters, if a chain with contours or a point and one with a cloud have neighbouring `zorder`s:
the chain with the greater one is not drawn over the other, as its cloud lies under these. -/
theorem C125_violated_plot {lib : Lib} {cfg : PlotConfig} {truths : List (Truth ℝ)} {b : PlottingBase} {fig : Fig}
    (h : plotBase lib cfg truths b = .ok fig) {i j : Nat} {calls : List Call} (hp : ((i, j), calls) ∈ fig.panels)
    (hn : (b.chains.map (·.name)).Nodup) {c d : Chain ℝ} (hc : c ∈ b.chains) (hd : d ∈ b.chains) (hz : z c < z d ∧ z d < z c + 5)
    {px py : String} (hx : b.columns[j]? = some px) (hy : b.columns[i + if cfg.plotHists then 0 else 1]? = some py)
    (hij : j < i + if cfg.plotHists then 0 else 1) (hpc : px ∈ c.plottingColumns ∧ py ∈ c.plottingColumns)
    (hpd : px ∈ d.plottingColumns ∧ py ∈ d.plottingColumns)
    (hcc : c.cfg .plotContour = true ∨ c.cfg .plotPoint = true ∧ hasPoint c px py = true) (hdc : d.cfg .plotCloud = true) :
    ¬Above (drawn b.chains calls) (Of c) (Of d) := by
  obtain ⟨-, -, h⟩ := plot_cases h hp
  rcases h with ⟨hlt, -⟩ | ⟨-, -, px', py', s, dr, bars, hx', hy', -, hs, rfl⟩ | ⟨hh, rfl, -⟩
  · exfalso; revert hij; split <;> intro hij <;> omega
  · rw [hx] at hx'
    rw [hy] at hy'
    cases hx'
    cases hy'
    have hi := (plotSurface_items hs).1
    have mem : ∀ it, it ∈ surfaceItems b.chains px py → ∃ x ∈ dr, itemOf x = some it := by
      intro it hit
      rw [← hi] at hit
      exact List.mem_filterMap.1 hit
    have m2 : Item.cloud d.name px py ∈ surfaceItems b.chains px py := by
      refine List.mem_flatMap.2 ⟨d, List.mem_filter.2 ⟨hd, by simpa using hpd⟩, ?_⟩
      simp [hdc]
    obtain ⟨y, hym, hyi⟩ := mem _ m2
    have ey : ∃ u v w, y = .cloud d.name px py u v w := by
      cases y <;> simp only [itemOf, Option.some.injEq, reduceCtorEq, Item.cloud.injEq] at hyi
      obtain ⟨rfl, rfl, rfl⟩ := hyi
      exact ⟨_, _, _, rfl⟩
    obtain ⟨_, _, _, rfl⟩ := ey
    have hbd := mem_drawn hn hd (calls := s ++ (dr ++ plotTruths lib.filled truths (some px) (some py)))
      (List.mem_append_right _ (List.mem_append_left _ hym)) rfl (a := ⟨.cloud, some d.name, z d - 5⟩) (by simp [chainArtists, z])
    rcases hcc with hcc | hcc
    · have m1 : Item.contour c.name px py ∈ surfaceItems b.chains px py := by
        refine List.mem_flatMap.2 ⟨c, List.mem_filter.2 ⟨hc, by simpa using hpc⟩, ?_⟩
        simp [hcc]
      obtain ⟨x, hxm, hxi⟩ := mem _ m1
      have ex : ∃ u v w l, x = .contour c.name px py u v w l := by
        cases x <;> simp only [itemOf, Option.some.injEq, reduceCtorEq, Item.contour.injEq] at hxi
        obtain ⟨rfl, rfl, rfl⟩ := hxi
        exact ⟨_, _, _, _, rfl⟩
      obtain ⟨_, _, _, _, rfl⟩ := ex
      refine not_above (a := ⟨.lines, some c.name, z c⟩)
        (mem_drawn hn hc (List.mem_append_right _ (List.mem_append_left _ hxm)) rfl ?_) hbd rfl rfl ?_
      · simp [chainArtists, z]
      · simp only; omega
    · have m1 : Item.point c.name px py ∈ surfaceItems b.chains px py := by
        refine List.mem_flatMap.2 ⟨c, List.mem_filter.2 ⟨hc, by simpa using hpc⟩, ?_⟩
        simp [hcc.1, hcc.2]
      obtain ⟨x, hxm, hxi⟩ := mem _ m1
      have ex : ∃ u v, x = .point c.name px py u v := by
        cases x <;> simp only [itemOf, Option.some.injEq, reduceCtorEq, Item.point.injEq] at hxi
        obtain ⟨rfl, rfl, rfl⟩ := hxi
        exact ⟨_, _, rfl⟩
      obtain ⟨_, _, rfl⟩ := ex
      refine not_above (a := ⟨.point, some c.name, z c + 1⟩)
        (mem_drawn hn hc (List.mem_append_right _ (List.mem_append_left _ hxm)) rfl ?_) hbd rfl rfl ?_
      · simp [chainArtists, z]
      · simp only; omega
  · exfalso; rw [hh] at hij; simp at hij

theorem walkPanel_walk {cfg : PlotConfig} {truths : List (Truth ℝ)} {b : PlottingBase} {p : String} {calls : List Call}
    (h : walkPanel cfg b truths p = .ok calls) {c : Chain ℝ} (hc : c ∈ b.chains) (hp : p ∈ c.dataColumns) :
    ∃ v, .walk c.name v ∈ calls := by
  simp only [walkPanel, bind_ok_iff, pure_ok_iff] at h
  obtain ⟨walks, hw, rfl⟩ := h
  obtain ⟨part, hpart, hr⟩ := stack_mem (mapM_ok_iff.1 hw).flip hc
  rw [if_pos hp] at hr
  simp only [bind_ok_iff] at hr
  obtain ⟨v, -, hr⟩ := hr
  simp only [plotWalk, bind_ok_iff, pure_ok_iff] at hr
  obtain ⟨lim, hl, -, -, rfl⟩ := hr
  exact ⟨thin v, List.mem_append_left _ (List.mem_append_left _ (List.mem_flatten.2 ⟨_, hpart, by simp⟩))⟩

theorem above_asymm {l : List Layer} {P Q : Layer → Prop} {a b : Layer} (ha : a ∈ l) (hb : b ∈ l) (hp : P a) (hq : Q b)
    (hab : a ≠ b) (h : Above l P Q) : ¬Above l Q P := by
  intro h'
  obtain ⟨i, hi, rfl⟩ := List.mem_iff_getElem.1 ha
  obtain ⟨j, hj, rfl⟩ := List.mem_iff_getElem.1 hb
  rw [Above, List.pairwise_iff_getElem] at h h'
  rcases Nat.lt_trichotomy i j with hij | rfl | hij
  · exact h' i j hi hj hij hp hq
  · exact hab rfl
  · exact h j i hj hi hij hq hp

/-- **C125** is violated by `plot_walks`, which takes no notice of `zorder`: the walk of the later chain is drawn over that of the
earlier one, and not the other way round, whatever their `zorder`s. -/
theorem C125_violated_walks {cfg : PlotConfig} {truths : List (Truth ℝ)} {b : PlottingBase} {p : String} {calls : List Call}
    (h : walkPanel cfg b truths p = .ok calls) (hn : (b.chains.map (·.name)).Nodup) {c d : Chain ℝ}
    (hcd : [c, d].Sublist b.chains) : Above (drawn b.chains calls) (Of c) (Of d) ∧
      (p ∈ c.dataColumns → p ∈ d.dataColumns → ¬Above (drawn b.chains calls) (Of d) (Of c)) := by
  have ht := walk_inTurn h
  have hc : c ∈ b.chains := hcd.subset (by simp)
  have hd : d ∈ b.chains := hcd.subset (by simp)
  have hone : ∀ e ∈ b.chains, ∀ a ∈ calls.flatMap (callArtists b.chains), Of e a → a.zorder = 1 := by
    intro e he a ha hae
    obtain ⟨x, hx, hxo, hax⟩ := mem_artists hn he ha hae
    rcases inTurn_calls ht x hx with h1 | ⟨-, _, _, rfl⟩
    · rw [h1.1] at hxo; cases hxo
    · rw [List.mem_singleton.1 hax]
  have habove : Above (drawn b.chains calls) (Of c) (Of d) := by
    apply above_stable (inTurn_above ht hn hcd)
    intro a ha b' hb h1 h2
    rw [hone c hc a ha h1, hone d hd b' hb h2]
  refine ⟨habove, fun hpc hpd => ?_⟩
  obtain ⟨v, hv⟩ := walkPanel_walk h hc hpc
  obtain ⟨w, hw⟩ := walkPanel_walk h hd hpd
  have hne : c.name ≠ d.name := by
    have : [c.name, d.name].Nodup := (hcd.map fun e : Chain ℝ => e.name).nodup hn
    simpa using this
  refine above_asymm (a := ⟨.walk, some c.name, 1⟩) (b := ⟨.walk, some d.name, 1⟩)
    (List.mem_mergeSort.2 (mem_drawn hn hc hv rfl (List.mem_singleton.2 rfl)))
    (List.mem_mergeSort.2 (mem_drawn hn hd hw rfl (List.mem_singleton.2 rfl))) rfl rfl ?_ habove
  intro h
  exact hne (Option.some.inj (Layer.mk.inj h).2.1)

/-! ### concrete cases -/

/-- One row with a posterior. -/
noncomputable def rowFrame : Frame ℝ := ⟨[.int 0], [("a", [1]), ("b", [5]), ("weight", [1]), ("log_posterior", [1])]⟩

/-- Chains with a cloud and a point, with any `zorder`. -/
theorem stack_chain (name : String) (n : Int) : ∃ c : Chain ℝ, c.name = name ∧ z c = n ∧ c.plottingColumns = ["a", "b"] ∧
    "a" ∈ c.dataColumns ∧ c.cfg .plotCloud = true ∧ c.cfg .plotPoint = true ∧ hasPoint c "a" "b" = true ∧
    c.samples = rowFrame ∧ (∃ args, Chain.make args = .ok c) ∧
    ∀ lib cfg, surfaceChain lib cfg "a" "b" c = .ok ([.cloud name "a" "b" [1] [5] none, .point name "a" "b" 1 5], []) := by
  obtain ⟨c, hmk, hsam, hwc, hpc, -, -, -, hname, hcfg⟩ := plain_chain_cfg (K := ℝ) false
    [⟨.plotContour, false⟩, ⟨.plotCloud, true⟩, ⟨.plotPoint, true⟩, ⟨.zorder, n⟩] rfl
    (by change (0 : ℝ) ≤ 6827 / 10000 ∧ (6827 / 10000 : ℝ) ≤ 1; constructor <;> norm_num)
    (by change (1 : ℝ) ≤ 10; norm_num) rfl rfl (by intro h; cases h) rowFrame ⟨by decide, by simp [rowFrame]⟩
    (by simp [rowFrame]) (w := [1]) rfl (by simp) name 1 le_rfl (one_dvd _)
  have h1 : (c.cfg .plotCloud : Bool) = true := by rw [hcfg]; rfl
  have h2 : (c.cfg .plotContour : Bool) = false := by rw [hcfg]; rfl
  have h3 : (c.cfg .plotPoint : Bool) = true := by rw [hcfg]; rfl
  have h4 : c.cfg .colorParam = none := by rw [hcfg]; rfl
  have h5 : (c.cfg .numCloud : ℝ) = 10000 := by rw [hcfg]; rfl
  have ha : c.samples.get "a" = .ok [1] := by rw [hsam]; rfl
  have hb : c.samples.get "b" = .ok [5] := by rw [hsam]; rfl
  have hd : c.dataColumns = ["a", "b"] := by
    rw [Chain.dataColumns, hsam, hwc, hpc, show rowFrame.columns = ["a", "b", "weight", "log_posterior"] from rfl]
    decide
  have hp : c.plottingColumns = ["a", "b"] := by
    rw [Chain.plottingColumns, hd, h4, h1]
    decide
  have hs : cloudStep 1 10000 = .ok 1 := by
    have : ⌊((1 : ℕ) : ℝ) / 10000⌋ = 0 := by
      rw [Int.floor_eq_zero_iff]; constructor <;> norm_num
    rw [cloudStep, this]
    simp [ensure, bind, Except.bind, pure, Except.pure]
  have he : ∀ a : ℝ, everyNth 1 [a] = [a] := by intro a; simp [everyNth]
  have hm : ∃ m, c.maxPosteriorPoint = .ok (some m) ∧ m.coordinate.lookup "a" = some 1 ∧ m.coordinate.lookup "b" = some 5 := by
    have e1 : c.logPosterior = some [1] := by rw [Chain.logPosterior, hsam, hpc]; rfl
    have e2 : argmax [(1 : ℝ)] = some 0 := rfl
    have e3 : c.samples.positions (.int 0) = [0] := by rw [hsam]; rfl
    have e4 : c.samples.row 0 = [("a", 1), ("b", 5), ("weight", 1), ("log_posterior", 1)] := by rw [hsam]; rfl
    refine ⟨⟨1, [("a", 1), ("b", 5)]⟩, ?_, rfl, rfl⟩
    simp [Chain.maxPosteriorPoint, e1, e2, e3, e4, hpc, hp, List.lookup]
  obtain ⟨m, hm, hma, hmb⟩ := hm
  refine ⟨c, hname, by rw [z, hcfg]; rfl, hp, by rw [hd]; simp, h1, h3, by simp [hasPoint, hm, hma, hmb], hsam, ⟨_, hmk⟩, fun lib cfg => ?_⟩
  simp [surfaceChain, hp, cloudCalls, h1, plotCloud, ha, hb, h5, hs, Chain.colorData, h4, he, contourCalls, h2, pointCalls,
      h3, plotPoint, hm, hma, hmb, hname, bind, Except.bind, pure, Except.pure]

theorem stack_figure (lib : Lib) {chains : List (Chain ℝ)} {rs : List (List Call × List String)}
    (h : chains.mapM (surfaceChain lib { plotHists := false } "a" "b") = .ok rs) :
    ∃ calls bars, plotBase lib { plotHists := false } [] (demoBase chains) = .ok ⟨[((0, 0), calls)], bars⟩ := by
  obtain ⟨s, h1⟩ := demo_setup { plotHists := false } chains 1 0 0 "b" "a" (.inr rfl) (.inl rfl)
  have hg : gridPanels 1 1 = [(0, 0)] := rfl
  have h2 : plotSurface lib { plotHists := false } chains "a" "b" = .ok (rs.flatMap Prod.fst, rs.flatMap Prod.snd) := by
    unfold plotSurface
    rw [h]
    rfl
  have h3 : ∀ su fl nx, drawPanel lib { plotHists := false } (demoBase chains) [] su fl nx 0 0 "b" "a" = .ok
      (rs.flatMap Prod.fst ++ [], rs.flatMap Prod.snd) := by
    intro su fl nx
    have hch : (demoBase chains).chains = chains := rfl
    simp only [drawPanel, hch, h2, Nat.lt_irrefl, Bool.false_and, Bool.false_eq_true, if_false, bind, Except.bind, pure, Except.pure]
    rfl
  have hcols : (demoBase chains).columns = ["a", "b"] := rfl
  refine ⟨_, _, by
    simp only [plotBase, hcols, Bool.false_eq_true, if_false, List.tail_cons, List.length_cons, List.length_nil, Nat.zero_add,
      List.dropLast_cons_cons, List.dropLast_singleton, hg, List.mapM_cons, List.mapM_nil, List.getD_cons_zero, h3, h1, Nat.add_sub_cancel,
      bind, Except.bind, pure, Except.pure, ensure, Nat.zero_lt_one, decide_true, if_true, List.zipWith_cons_cons, List.zipWith_nil_left,
      List.zip_cons_cons, List.zip_nil_left]
    rfl⟩

/-- `C125_plot_apart`, `C125_plot_partial` and `C125_truths` apply to a figure of two chains whose `zorder`s are 10 and 20, and
`C125_violated_plot` if they are 10 and 11. -/
example (lib : Lib) : ∃ (c d e : Chain ℝ) (calls calls' : List Call) (bars bars' : List String),
    plotBase lib { plotHists := false } [] (demoBase [c, d]) = .ok ⟨[((0, 0), calls)], bars⟩ ∧
    plotBase lib { plotHists := false } [] (demoBase [c, e]) = .ok ⟨[((0, 0), calls')], bars'⟩ ∧
    Above (drawn [c, d] calls) (Of c) (Of d) ∧ ¬Above (drawn [c, e] calls') (Of c) (Of e) ∧ z c < z e ∧
    Over [c, e] c e := by
  obtain ⟨c, hc1, hc2, hc3, -, hc4, hc5, hc6, -, -, hc7⟩ := stack_chain "x" 10
  obtain ⟨d, hd1, hd2, hd3, -, hd4, hd5, hd6, -, -, hd7⟩ := stack_chain "y" 20
  obtain ⟨e, he1, he2, he3, -, he4, he5, he6, -, -, he7⟩ := stack_chain "y" 11
  obtain ⟨calls, bars, h1⟩ := stack_figure lib (chains := [c, d]) (rs := _) (by
    rw [List.mapM_cons, List.mapM_cons, List.mapM_nil, hc7, hd7]; rfl)
  obtain ⟨calls', bars', h2⟩ := stack_figure lib (chains := [c, e]) (rs := _) (by
    rw [List.mapM_cons, List.mapM_cons, List.mapM_nil, hc7, he7]; rfl)
  refine ⟨c, d, e, calls, calls', bars, bars', h1, h2, ?_, ?_, by omega, by simp, by simp, .inl (by omega)⟩
  · exact C125_plot_apart h1 (i := 0) (j := 0) (by simp) (by simp [demoBase, hc1, hd1]) (by simp [demoBase]) (by simp [demoBase])
      (by omega)
  · exact C125_violated_plot h2 (i := 0) (j := 0) (px := "a") (py := "b") (by simp) (by simp [demoBase, hc1, he1])
      (by simp [demoBase]) (by simp [demoBase]) ⟨by omega, by omega⟩ rfl rfl (by simp) (by simp [hc3]) (by simp [he3]) (.inr ⟨hc5, hc6⟩) he4

theorem demo_zorder {c : Chain ℝ} {f : Frame ℝ} {name : String} {grid : Bool} {kw : List (Kwarg ℝ)} (h : DemoChain c f name grid kw)
    (hkw : kw = barKw ∨ kw = cloudKw) : z c = 10 := by
  rw [z, h.cfg]; rcases hkw with rfl | rfl <;> rfl

/-- `C125_histogram` and `C125_truths` apply to a figure of two chains with a truth. -/
example (lib : Lib) : ∃ (c d : Chain ℝ) (fig : Fig) (calls : List Call),
    plotBase lib otherCfg [Truth.line [("a", 1 / 4)]] (otherBase [c, d] ["a", "b"]) = .ok fig ∧ ((0, 0), calls) ∈ fig.panels ∧
    Above (drawn [c, d] calls) (Of c) (Of d) ∧ Above (drawn [c, d] calls) (Of c) IsTruth := by
  obtain ⟨c1, h1⟩ := gridSingle_exists
  obtain ⟨c2, h2⟩ := cloudPair_exists
  obtain ⟨fig, f1⟩ := other_plot lib [Truth.line [("a", 1 / 4)]] h1 h2 (.inl rfl)
  have hk := (plot_panels f1).2.1
  have : (0, 0) ∈ fig.panels.map Prod.fst := by
    rw [hk, show (otherBase [c1, c2] ["a", "b"]).columns.length - rowShift otherCfg = 2 from rfl]
    simp [gridPanels]
  obtain ⟨⟨ij, calls⟩, hm, rfl⟩ := List.mem_map.1 this
  have hn : ((otherBase [c1, c2] ["a", "b"]).chains.map (·.name)).Nodup := by simp [otherBase, h1.name, h2.name]
  have z1 := demo_zorder h1 (.inl rfl)
  have z2 := demo_zorder h2 (.inr rfl)
  refine ⟨c1, c2, fig, calls, f1, hm, C125_histogram f1 rfl hm hn ⟨by simp [otherBase], by simp [otherBase], .inr ⟨by omega, ?_⟩⟩,
    (C125_truths hn (c := c1) (by simp [otherBase]) hm).1 ⟨lib, _, f1⟩ ?_⟩
  · simp [otherBase]
  · intro t ht
    rw [List.mem_singleton.1 ht, z1]
    decide

/-- `C125_distributions` and `C125_violated_walks` apply to two chains with the same marginal. -/
example (lib : Lib) : ∃ (c d : Chain ℝ) (fig : Fig) (calls walks : List Call),
    plotDistributionsBase lib otherCfg [] 4 (otherBase [c, d] ["a"]) = .ok fig ∧ ((0, 0), calls) ∈ fig.panels ∧
    ⟨.curve, some "grid", 10⟩ ∈ drawn [c, d] calls ∧ ⟨.curve, some "late", 10⟩ ∈ drawn [c, d] calls ∧
    Above (drawn [c, d] calls) (Of c) (Of d) ∧ walkPanel otherCfg (otherBase [c, d] ["a"]) [] "a" = .ok walks ∧
    Above (drawn [c, d] walks) (Of c) (Of d) ∧ ¬Above (drawn [c, d] walks) (Of d) (Of c) := by
  obtain ⟨c, hc⟩ := gridPair_exists
  obtain ⟨d, hd⟩ : ∃ c, DemoChain c pairFrame "late" true barKw :=
    demoChain_exists _ pairFrame_wf (by simp [pairFrame]) (w := [1, 1]) rfl (by simp) _ _ _ (.inl rfl)
  have hp : c.plottingColumns = ["a", "b"] := (demo_columns hc (.inl rfl)).trans (by decide)
  have hp' : d.plottingColumns = ["a", "b"] := (demo_columns hd (.inl rfl)).trans (by decide)
  have hk : (c.cfg .plotContour : Bool) = true := by rw [hc.cfg]; rfl
  have hk' : (d.cfg .plotContour : Bool) = true := by rw [hd.cfg]; rfl
  have hb := demo_bars hc lib otherCfg one_pos (col := "a") rfl rfl
  have hb' := demo_bars hd lib otherCfg one_pos (col := "a") rfl rfl
  have hn : ((otherBase [c, d] ["a"]).chains.map (·.name)).Nodup := by simp [otherBase, hc.name, hd.name]
  have z1 := demo_zorder hc (.inl rfl)
  have z2 := demo_zorder hd (.inl rfl)
  have ha : ∃ r, distPanel lib otherCfg (otherBase [c, d] ["a"]) [] "a" = .ok r ∧
      .marginal "grid" "a" false [0, 1] [1 / 2, 1 / 2] ∈ r ∧ .marginal "late" "a" false [0, 1] [1 / 2, 1 / 2] ∈ r := by
    simp [distPanel, otherBase, setLim, distChains, hk, hp, hk', hp', hb, hb', bind, Except.bind, pure, Except.pure,
      topStep, distYlim]
  obtain ⟨r, ea, i1, i2⟩ := ha
  have f1 : plotDistributionsBase lib otherCfg [] 4 (otherBase [c, d] ["a"]) = .ok { panels := [((0, 0), r)] } := by
    simp only [plotDistributionsBase]
    simp [show (otherBase [c, d] ["a"]).columns = ["a"] from rfl, show gridPanels 1 1 = [(0, 0)] from rfl, ea, ensure, bind,
      Except.bind, pure, Except.pure]
  have m1 : ((0, 0), r) ∈ ({ panels := [((0, 0), r)] } : Fig).panels := by simp
  have ht : ∀ x y : ℝ, thin [x, y] = [x, y] := by
    intro x y
    rw [thin, if_neg]
    unfold maxPoints
    simp
  have hg : ∀ e ∈ [c, d], e.samples.get "a" = .ok [0, 1] ∧ "a" ∈ e.dataColumns := by
    intro e he
    simp only [List.mem_cons, List.not_mem_nil, or_false] at he
    rcases he with rfl | rfl
    · exact ⟨by rw [hc.samples]; rfl, by rw [demo_dataColumns hc]; simp⟩
    · refine ⟨by rw [hd.samples]; rfl, ?_⟩
      have := hp'
      rw [Chain.plottingColumns, show e.cfg .plotCloud = false by rw [hd.cfg]; rfl] at this
      simp only [Bool.not_false, if_true] at this
      rw [this]; simp
  have hw : ∃ w, walkPanel otherCfg (otherBase [c, d] ["a"]) [] "a" = .ok w := by
    have g1 := hg c (by simp)
    have g2 := hg d (by simp)
    simp [walkPanel, otherBase, g1.1, g1.2, g2.1, g2.2, ht, plotWalk, walkLim, setLim, ensure, bind, Except.bind, pure, Except.pure]
  obtain ⟨w, hw⟩ := hw
  have hv := C125_violated_walks hw hn (c := c) (d := d) (by simp [otherBase])
  refine ⟨c, d, _, r, w, f1, m1, ?_, ?_, C125_distributions f1 m1 hn ⟨by simp [otherBase], by simp [otherBase], .inr ⟨by omega, ?_⟩⟩,
    hw, hv.1, hv.2 (hg c (by simp)).2 (hg d (by simp)).2⟩
  · rw [← hc.name, ← z1]
    exact List.mem_mergeSort.2
      (mem_drawn hn (c := c) (by simp [otherBase]) i1 (by simp [Call.owner, hc.name]) (by simp [chainArtists, z]))
  · rw [← hd.name, ← z2]
    exact List.mem_mergeSort.2
      (mem_drawn hn (c := d) (by simp [otherBase]) i2 (by simp [Call.owner, hd.name]) (by simp [chainArtists, z]))
  · simp [otherBase]

end CC
