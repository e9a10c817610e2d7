import Mathlib.Tactic.Common
import Verif.Spec.Selector

/-! C29, C30: selector matching against the meaning of selectors (Spec/Selector.lean). -/

namespace Textual.Css

theorem matchesSelector_iff (ctx : Ctx) (w : Widget) (s : Selector) :
    w.matchesSelector ctx s = true ↔ Satisfies ctx w s := by
  cases s with
  | type n =>
    simp only [Widget.matchesSelector, Satisfies, List.isEmpty_iff]
    split
    · simp only [beq_iff_eq]; exact ⟨Eq.symm, Eq.symm⟩
    · simp
  | id i => simp [Widget.matchesSelector, Satisfies]
  | cls c => simp [Widget.matchesSelector, Satisfies]
  | universal => simp [Widget.matchesSelector, Satisfies]
  | parent => simp [Widget.matchesSelector, Satisfies]
  | «attribute» a b => simp [Widget.matchesSelector, Satisfies]
  | pseudo n =>
    simp only [Widget.matchesSelector, Satisfies]
    split
    · rename_i h; subst h; simp
    · split
      · rename_i h; subst h; simp
      · split
        · rename_i h; subst h; simp
        · split
          · rename_i h; subst h; simp
          · split
            · rename_i h; subst h; simp
            · split
              · rename_i h; subst h; simp
              · split
                · rename_i h; subst h; simp
                · split
                  · rename_i h; subst h; simp
                  · simp; tauto

theorem matchesCompound_iff (ctx : Ctx) (w : Widget) (ws : List Widget) (c : Compound) :
    w.matchesCompound ctx c = true ↔ Fits ctx (w :: ws) c := by
  simp only [Widget.matchesCompound, List.all_eq_true, matchesSelector_iff, Fits]
  constructor
  · intro h; exact ⟨w, ws, rfl, h⟩
  · rintro ⟨w', ws', he, h⟩
    cases he; exact h

theorem chain_append (ctx : Ctx) (q : Part) (r : Complex) (ps : Complex) : ∀ (l : Part) (top bot : List Widget),
    Chain ctx (ps ++ l :: q :: r) top bot ↔
      ∃ m1 m2, Chain ctx (ps ++ [l]) top m1 ∧ Below l.combinator m1 m2 ∧ Chain ctx (q :: r) m2 bot := by
  induction ps with
  | nil =>
    intro l top bot
    simp only [List.nil_append, Chain]
    constructor
    · rintro ⟨hf, mid, hb, hc⟩
      exact ⟨top, mid, ⟨rfl, hf⟩, hb, hc⟩
    · rintro ⟨m1, m2, ⟨rfl, hf⟩, hb, hc⟩
      exact ⟨hf, m2, hb, hc⟩
  | cons p ps ih =>
    intro l top bot
    cases ps with
    | nil =>
      simp only [List.cons_append, List.nil_append, Chain]
      constructor
      · rintro ⟨hf, m, hb, hf2, m2, hb2, hc⟩
        exact ⟨m, m2, ⟨hf, m, hb, rfl, hf2⟩, hb2, hc⟩
      · rintro ⟨m1, m2, ⟨hf, m, hb, rfl, hf2⟩, hb2, hc⟩
        exact ⟨hf, m, hb, hf2, m2, hb2, hc⟩
    | cons p' ps' =>
      have ih' := ih l
      simp only [List.cons_append] at ih' ⊢
      simp only [Chain] at ih' ⊢
      constructor
      · rintro ⟨hf, m, hb, hc⟩
        obtain ⟨m1, m2, h1, h2, h3⟩ := (ih' m bot).1 hc
        exact ⟨m1, m2, ⟨hf, m, hb, h1⟩, h2, h3⟩
      · rintro ⟨m1, m2, ⟨hf, m, hb, h1⟩, h2, h3⟩
        exact ⟨hf, m, hb, (ih' m bot).2 ⟨m1, m2, h1, h2, h3⟩⟩

/-- The parts left of the last one, right to left, satisfied by the ancestors. -/
def Above (ctx : Ctx) : List Part → List Widget → Prop
  | [], _ => True
  | p :: ps, anc => ∃ pre a as, anc = pre ++ a :: as ∧
      (match p.combinator with
        | .child => pre = []
        | .descendant | .none => True
        | .adjacentSibling | .generalSibling => False) ∧
      Fits ctx (a :: as) p.compound ∧ Above ctx ps as

theorem applies_iff (ctx : Ctx) (ps : List Part) : ∀ (l : Part) (w : Widget) (anc : List Widget),
    Applies ctx (ps.reverse ++ [l]) (w :: anc) ↔ Fits ctx (w :: anc) l.compound ∧ Above ctx ps anc := by
  induction ps with
  | nil =>
    intro l w anc
    simp [Applies, Chain, Above]
  | cons p ps ih =>
    intro l w anc
    have e : (p :: ps).reverse ++ [l] = ps.reverse ++ p :: l :: [] := by simp
    rw [e, Applies]
    simp only [chain_append, Chain]
    constructor
    · rintro ⟨top, m1, m2, h1, hb, rfl, hf⟩
      refine ⟨hf, ?_⟩
      have hm1 : ∃ a as, m1 = a :: as := by
        cases m1 with
        | cons a as => exact ⟨a, as, rfl⟩
        | nil =>
          exfalso
          have : ∀ (x : Complex) (t : List Widget), Chain ctx (x ++ [p]) t [] → False := by
            intro x
            induction x with
            | nil => rintro t ⟨_, w, ws, h, _⟩; simp at h
            | cons y ys ihy =>
              intro t h
              cases ys with
              | nil =>
                simp only [List.cons_append, List.nil_append, Chain] at h
                obtain ⟨_, m, _, rfl, w, ws, h, _⟩ := h
                simp at h
              | cons z zs =>
                simp only [List.cons_append, Chain] at h
                obtain ⟨_, m, _, h⟩ := h
                exact ihy m h
          exact this _ _ h1
      obtain ⟨a, as, rfl⟩ := hm1
      have ihp := (ih p a as).1 ⟨top, h1⟩
      unfold Above
      unfold Below at hb
      cases hc : p.combinator <;> rw [hc] at hb <;> simp only at hb
      · obtain ⟨x, xs, he⟩ := hb
        simp at he
        exact ⟨xs, a, as, he.2, by simp, ihp.1, ihp.2⟩
      · obtain ⟨x, xs, he⟩ := hb
        simp at he
        exact ⟨xs, a, as, he.2, by simp, ihp.1, ihp.2⟩
      · obtain ⟨x, he⟩ := hb
        simp at he
        exact ⟨[], a, as, he.2, by simp, ihp.1, ihp.2⟩
    · rintro ⟨hf, ha⟩
      unfold Above at ha
      obtain ⟨pre, a, as, rfl, hcomb, hfa, hab⟩ := ha
      obtain ⟨top, hch⟩ := (ih p a as).2 ⟨hfa, hab⟩
      refine ⟨top, a :: as, w :: (pre ++ a :: as), hch, ?_, rfl, hf⟩
      unfold Below
      cases hc : p.combinator <;> rw [hc] at hcomb <;> simp only at hcomb ⊢
      · exact ⟨w, pre, rfl⟩
      · exact ⟨w, pre, rfl⟩
      · subst hcomb; exact ⟨w, rfl⟩

/-- What is left to match once a part has been matched. -/
def matchRest (ctx : Ctx) (ps : List Part) (as : List Widget) : Bool :=
  match ps with
  | [] => true
  | q :: qs => matchAncestors ctx q qs as

theorem matchAncestors_cons (ctx : Ctx) (p : Part) (ps : List Part) (a : Widget) (as : List Widget) :
    matchAncestors ctx p ps (a :: as) =
      match p.combinator with
      | .child => if a.matchesCompound ctx p.compound then matchRest ctx ps as else false
      | .descendant | .none =>
        if a.matchesCompound ctx p.compound then matchRest ctx ps as else matchAncestors ctx p ps as
      | .adjacentSibling | .generalSibling => false := by
  rw [matchAncestors.eq_def]
  cases p.combinator <;> rfl

theorem matchAncestors_sound (ctx : Ctx) (anc : List Widget) : ∀ (p : Part) (ps : List Part),
    matchAncestors ctx p ps anc = true → Above ctx (p :: ps) anc := by
  induction anc with
  | nil => intro p ps h; simp [matchAncestors] at h
  | cons a as ih =>
    intro p ps h
    rw [matchAncestors_cons] at h
    have hrest : matchRest ctx ps as = true → Above ctx ps as := by
      intro h
      cases ps with
      | nil => trivial
      | cons q qs => exact ih q qs h
    have desc : (p.combinator = .descendant ∨ p.combinator = .none) →
        (if a.matchesCompound ctx p.compound then matchRest ctx ps as
          else matchAncestors ctx p ps as) = true → Above ctx (p :: ps) (a :: as) := by
      intro hc h
      split at h
      · rename_i hok
        refine ⟨[], a, as, rfl, ?_, (matchesCompound_iff ctx a as _).1 hok, hrest h⟩
        rcases hc with hc | hc <;> rw [hc] <;> trivial
      · obtain ⟨pre, b, bs, rfl, _, hf, hab⟩ := ih p ps h
        refine ⟨a :: pre, b, bs, rfl, ?_, hf, hab⟩
        rcases hc with hc | hc <;> rw [hc] <;> trivial
    cases hc : p.combinator with
    | child =>
      rw [hc] at h
      simp only at h
      split at h
      · rename_i hok
        refine ⟨[], a, as, rfl, ?_, (matchesCompound_iff ctx a as _).1 hok, hrest h⟩
        rw [hc]
      · simp at h
    | descendant => rw [hc] at h; exact desc (Or.inl hc) h
    | none => rw [hc] at h; exact desc (Or.inr hc) h
    | adjacentSibling => rw [hc] at h; simp at h
    | generalSibling => rw [hc] at h; simp at h

/-- C29: whatever the selector and the ancestors, a reported match is a real one: there are widgets on
the path satisfying every part, related as the combinators say. -/
theorem matchesComplex_sound (ctx : Ctx) (sel : Complex) (w : Widget) (anc : List Widget)
    (h : w.matchesComplex ctx sel anc = true) : Applies ctx sel (w :: anc) := by
  unfold Widget.matchesComplex at h
  split at h
  · simp at h
  · rename_i last before hrev
    have hsel : sel = before.reverse ++ [last] := by
      rw [← List.reverse_reverse sel, hrev]; simp
    rw [hsel, applies_iff]
    split at h
    · rename_i hok
      refine ⟨(matchesCompound_iff ctx w anc _).1 hok, ?_⟩
      cases before with
      | nil => trivial
      | cons p ps => exact matchAncestors_sound ctx anc p ps h
    · simp at h

/-- A descendant combinator: the blank, or the missing one. -/
def IsDescendant (p : Part) : Prop := p.combinator = .descendant ∨ p.combinator = .none

theorem above_desc_suffix (ctx : Ctx) (ps : List Part) (hd : ∀ p ∈ ps, IsDescendant p) :
    ∀ (pre as : List Widget), Above ctx ps as → Above ctx ps (pre ++ as) := by
  intro pre as h
  cases ps with
  | nil => trivial
  | cons p ps =>
    obtain ⟨pre', a, as', rfl, _, hf, hab⟩ := h
    refine ⟨pre ++ pre', a, as', by simp, ?_, hf, hab⟩
    rcases hd p (by simp) with h | h <;> rw [h] <;> trivial

theorem matchAncestors_complete_desc (ctx : Ctx) (anc : List Widget) : ∀ (p : Part) (ps : List Part),
    (∀ q ∈ p :: ps, IsDescendant q) → Above ctx (p :: ps) anc → matchAncestors ctx p ps anc = true := by
  induction anc with
  | nil => rintro p ps _ ⟨pre, a, as, h, _⟩; simp at h
  | cons a as ih =>
    intro p ps hd hab
    have hps : ∀ q ∈ ps, IsDescendant q := fun q hq => hd q (by simp [hq])
    obtain ⟨pre, b, bs, he, _, hf, hrest⟩ := hab
    have step : matchAncestors ctx p ps (a :: as) =
        if a.matchesCompound ctx p.compound then
          matchRest ctx ps as
        else matchAncestors ctx p ps as := by
      rw [matchAncestors_cons]
      rcases hd p (by simp) with h | h <;> rw [h]
    rw [step]
    have habs : Above ctx ps as ∨ Above ctx (p :: ps) as := by
      cases pre with
      | nil => simp at he; rw [he.2]; exact Or.inl hrest
      | cons x xs =>
        simp at he
        right
        refine ⟨xs, b, bs, he.2, ?_, hf, hrest⟩
        rcases hd p (by simp) with h | h <;> rw [h] <;> trivial
    split
    · have hlow : Above ctx ps as := by
        rcases habs with h | h
        · exact h
        · obtain ⟨pre2, c, cs, rfl, _, _, h2⟩ := h
          have := above_desc_suffix ctx ps hps (pre2 ++ [c]) cs h2
          simpa using this
      cases ps with
      | nil => rfl
      | cons q qs => exact ih q qs hps hlow
    · rename_i hno
      cases pre with
      | nil =>
        simp at he
        rw [he.1] at hno
        exact absurd ((matchesCompound_iff ctx b bs _).2 hf) hno
      | cons x xs =>
        simp at he
        apply ih p ps hd
        refine ⟨xs, b, bs, he.2, ?_, hf, hrest⟩
        rcases hd p (by simp) with h | h <;> rw [h] <;> trivial

theorem matchAncestors_complete (ctx : Ctx) (ds : List Part) (hd : ∀ p ∈ ds, IsDescendant p)
    (cs : List Part) : (∀ p ∈ cs, p.combinator = .child) → ∀ (p : Part) (ps : List Part) (anc : List Widget),
    p :: ps = cs ++ ds → Above ctx (p :: ps) anc → matchAncestors ctx p ps anc = true := by
  induction cs with
  | nil =>
    intro _ p ps anc he hab
    simp at he
    apply matchAncestors_complete_desc ctx anc p ps _ hab
    rw [he]; exact hd
  | cons c cs ih =>
    intro hc p ps anc he hab
    simp at he
    obtain ⟨rfl, rfl⟩ := he
    obtain ⟨pre, b, bs, rfl, hcomb, hf, hrest⟩ := hab
    have hch := hc p (by simp)
    rw [hch] at hcomb
    simp only at hcomb
    subst hcomb
    rw [List.nil_append, matchAncestors_cons, hch]
    simp only
    rw [if_pos ((matchesCompound_iff ctx b bs _).2 hf)]
    cases hq : cs ++ ds with
    | nil => rfl
    | cons q qs =>
      rw [hq] at hrest
      exact ih (fun p hp => hc p (by simp [hp])) q qs bs hq.symm hrest

/-- C30 for selectors in which no descendant combinator comes after a child combinator (all blanks
first, then all `>`): such a selector is reported exactly when it applies. Missing: a descendant part
to the right of a child combinator, for which it is false (see the counterexample). -/
theorem matchesComplex_complete_partial (ctx : Ctx) (ds cs : List Part) (last : Part)
    (hd : ∀ p ∈ ds, IsDescendant p) (hc : ∀ p ∈ cs, p.combinator = .child)
    (w : Widget) (anc : List Widget) :
    w.matchesComplex ctx (ds ++ cs ++ [last]) anc = true ↔ Applies ctx (ds ++ cs ++ [last]) (w :: anc) := by
  constructor
  · exact matchesComplex_sound ctx _ w anc
  · intro h
    have e : ds ++ cs ++ [last] = (cs.reverse ++ ds.reverse).reverse ++ [last] := by simp
    rw [e, applies_iff] at h
    rw [e]
    unfold Widget.matchesComplex
    simp only [List.reverse_append, List.reverse_reverse, List.reverse_singleton, List.singleton_append,
      List.reverse_cons, List.reverse_nil, List.nil_append]
    rw [if_pos ((matchesCompound_iff ctx w anc _).2 h.1)]
    cases hq : cs.reverse ++ ds.reverse with
    | nil => rfl
    | cons p ps =>
      rw [hq] at h
      exact matchAncestors_complete ctx ds.reverse (by simpa using hd) cs.reverse (by simpa using hc) p ps
        anc hq.symm h.2

/-- A single compound selector (no combinator) matches exactly the widgets that satisfy it. -/
theorem matchesComplex_single (ctx : Ctx) (p : Part) (w : Widget) (anc : List Widget) :
    w.matchesComplex ctx [p] anc = true ↔ ∀ s ∈ p.compound, Satisfies ctx w s := by
  simp only [Widget.matchesComplex, List.reverse_singleton]
  have := matchesCompound_iff ctx w anc p.compound
  simp only [Fits] at this
  constructor
  · intro h
    split at h
    · rename_i hok
      obtain ⟨w', ws', he, h'⟩ := this.1 hok
      cases he; exact h'
    · simp at h
  · intro h
    rw [if_pos (this.2 ⟨w, anc, rfl, h⟩)]

/-- The widget types and the selector `A > B C` of the counterexample. -/
def exPart (t : String) (c : Combinator) : Part := ⟨[.type t], c⟩
def exWidget (t : String) : Widget := { typeName := t }
def exCtx : Ctx := ⟨true, false, false⟩

/-- C30 is false: `A > B C` applies to the `C` inside `B` inside `X` inside `B` inside `A`, but the
greedy search stops at the inner `B`, whose parent is not an `A`. -/
theorem matchesComplex_complete_counterexample :
    let sel := [exPart "A" .child, exPart "B" .descendant, exPart "C" .none]
    let anc := [exWidget "B", exWidget "X", exWidget "B", exWidget "A"]
    Applies exCtx sel (exWidget "C" :: anc) ∧ (exWidget "C").matchesComplex exCtx sel anc = false := by
  refine ⟨?_, by decide⟩
  refine ⟨[exWidget "A"], ⟨_, _, rfl, by simp [exPart, exWidget, Satisfies]⟩,
    [exWidget "B", exWidget "A"], ⟨_, rfl⟩, ⟨_, _, rfl, by simp [exPart, exWidget, Satisfies]⟩, _,
    ⟨exWidget "C", [exWidget "B", exWidget "X"], rfl⟩, rfl, ⟨_, _, rfl, by simp [exPart, exWidget, Satisfies]⟩⟩

/-- `A B > C` on `C` in `B` in `X` in `A`: meets the hypotheses of the completeness theorem. -/
example : (exWidget "C").matchesComplex exCtx
    ([exPart "A" .descendant] ++ [exPart "B" .child] ++ [exPart "C" .none])
    [exWidget "B", exWidget "X", exWidget "A"] = true :=
  (matchesComplex_complete_partial exCtx [exPart "A" .descendant] [exPart "B" .child] (exPart "C" .none)
    (by simp [IsDescendant, exPart]) (by simp [exPart]) _ _).2
  ⟨[exWidget "A"], ⟨_, _, rfl, by simp [exPart, exWidget, Satisfies]⟩,
    [exWidget "B", exWidget "X", exWidget "A"], ⟨exWidget "B", [exWidget "X"], rfl⟩,
    ⟨_, _, rfl, by simp [exPart, exWidget, Satisfies]⟩, _, ⟨exWidget "C", rfl⟩, rfl,
    ⟨_, _, rfl, by simp [exPart, exWidget, Satisfies]⟩⟩

end Textual.Css
