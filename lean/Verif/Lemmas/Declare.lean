import Verif.Model.Declare
import Verif.Spec.Properties
import Verif.Props.Cascade

/-! What each declaration sets (C147). -/

namespace Textual.Parse

open Css Sheet

theorem mem_of_lookup {α : Type} {n : String} {x : α} : ∀ {l : List (String × α)}, l.lookup n = some x → (n, x) ∈ l
  | [], h => by simp at h
  | (k, y) :: l, h => by
    rw [List.lookup_cons] at h
    split at h
    · rename_i he
      rw [beq_iff_eq] at he
      cases h
      rw [he]
      simp
    · exact List.mem_cons_of_mem _ (mem_of_lookup h)

/-- `About` as a check. -/
def aboutB (n : String) (f : Field) : Bool := parts.any fun e => e.1 == n && e.2.contains f

theorem aboutB_about {n : String} {f : Field} (h : aboutB n f = true) : About n f := by
  simp only [aboutB, List.any_eq_true, Bool.and_eq_true, beq_iff_eq, List.contains_iff_mem] at h
  obtain ⟨⟨n', fs⟩, h1, rfl, h2⟩ := h
  exact ⟨fs, h1, h2⟩

/-- The parts of a property. -/
def fieldsOf (n : String) : List Field := (parts.lookup n).getD []

theorem about_fields {n : String} {f : Field} (h : About n f) : f ∈ fieldsOf n := by
  obtain ⟨fs, h1, h2⟩ := h
  have key : ∀ l : List (String × List Field), (l.map Prod.fst).Nodup → (n, fs) ∈ l → l.lookup n = some fs := by
    intro l
    induction l with
    | nil => simp
    | cons e l ih =>
      intro hn hm
      simp only [List.map_cons, List.nodup_cons] at hn
      rcases List.mem_cons.1 hm with rfl | hm
      · simp [List.lookup_cons]
      · have : n ≠ e.1 := by
          rintro rfl
          exact hn.1 (List.mem_map.2 ⟨_, hm, rfl⟩)
        rw [List.lookup_cons]
        have hb : (n == e.1) = false := by simpa using this
        rw [hb]
        exact ih hn.2 hm
  unfold fieldsOf
  rw [key parts (by decide +kernel) h1]
  exact h2

/-- Fields where text styles accumulate. -/
def accB (f : Field) : Bool := f == .textStyle || f == .borderTitleStyle || f == .borderSubtitleStyle

/-- A declaration writes just the parts its property is about, besides accumulating ones. -/
def Wired (theme : ThemeEnv) (n : String) (d : Decl) : Prop :=
  (∀ f val, Sets theme d f val → About n f) ∧ (∀ f, About n f → ¬ Accumulates f → ∃ val, Sets theme d f val)

theorem wired_of_fields {theme : ThemeEnv} {n : String} {d : Decl} (fs : List Field)
    (h : (d.writes theme).map Prod.fst = fs) (h1 : fs.all (aboutB n) = true)
    (h2 : (fieldsOf n).all (fun f => accB f || fs.contains f) = true) : Wired theme n d := by
  constructor
  · intro f val hs
    apply aboutB_about
    rw [List.all_eq_true] at h1
    apply h1
    rw [← h]
    exact List.mem_map.2 ⟨_, hs, rfl⟩
  · intro f ha hacc
    rw [List.all_eq_true] at h2
    have := h2 f (about_fields ha)
    simp only [Bool.or_eq_true, List.contains_iff_mem] at this
    rcases this with hb | hm
    · refine absurd ?_ hacc
      simpa [accB, Accumulates, or_assoc] using hb
    · rw [← h] at hm
      obtain ⟨w, hw, rfl⟩ := List.mem_map.1 hm
      exact ⟨w.2, hw⟩

local macro "wired" : tactic => `(tactic| (
  refine wired_of_fields _ rfl ?_ ?_ <;>
    simp only [Decl.writes, List.map_cons, List.map_nil, List.map_append, List.cons_append, List.nil_append] <;>
    decide +kernel))

theorem decl_wired {theme : ThemeEnv} {enc : Value → String} {n : String} {v : Value} {d : Decl}
    (hd : declOf enc n v = some d) : Wired theme n d := by
  cases v <;> simp only [declOf, Option.map_eq_some_iff] at hd
  case color =>
    obtain ⟨g, hg, rfl⟩ := hd
    have key : ∀ e ∈ colorDecls, ∀ a, Wired theme e.1 (e.2 a) := by
      simp only [colorDecls, List.forall_mem_cons]
      repeat' apply And.intro
      all_goals first
        | (intro x hx; exact absurd hx List.not_mem_nil)
        | (intros; wired)
    exact key _ (mem_of_lookup hg) _
  case scalar =>
    obtain ⟨g, hg, rfl⟩ := hd
    have key : ∀ e ∈ scalarDecls, ∀ a, Wired theme e.1 (e.2 a) := by
      simp only [scalarDecls, List.forall_mem_cons]
      repeat' apply And.intro
      all_goals first
        | (intro x hx; exact absurd hx List.not_mem_nil)
        | (intros; wired)
    exact key _ (mem_of_lookup hg) _
  case edge =>
    obtain ⟨g, hg, rfl⟩ := hd
    have key : ∀ e ∈ edgeDecls, ∀ a, Wired theme e.1 (e.2 a) := by
      simp only [edgeDecls, List.forall_mem_cons]
      repeat' apply And.intro
      all_goals first
        | (intro x hx; exact absurd hx List.not_mem_nil)
        | (intros; wired)
    exact key _ (mem_of_lookup hg) _
  case num =>
    obtain ⟨g, hg, rfl⟩ := hd
    have key : ∀ e ∈ numDecls, ∀ a, Wired theme e.1 (e.2 a) := by
      simp only [numDecls, List.forall_mem_cons]
      repeat' apply And.intro
      all_goals first
        | (intro x hx; exact absurd hx List.not_mem_nil)
        | (intros; wired)
    exact key _ (mem_of_lookup hg) _
  case word =>
    obtain ⟨g, hg, rfl⟩ := hd
    have key : ∀ e ∈ wordDecls, ∀ a, Wired theme e.1 (e.2 a) := by
      simp only [wordDecls, List.forall_mem_cons]
      repeat' apply And.intro
      all_goals first
        | (intro x hx; exact absurd hx List.not_mem_nil)
        | (intros; wired)
    exact key _ (mem_of_lookup hg) _
  case style =>
    obtain ⟨g, hg, rfl⟩ := hd
    have key : ∀ e ∈ styleDecls, ∀ a, Wired theme e.1 (e.2 a) := by
      simp only [styleDecls, List.forall_mem_cons]
      repeat' apply And.intro
      all_goals first
        | (intro x hx; exact absurd hx List.not_mem_nil)
        | (intros; wired)
    exact key _ (mem_of_lookup hg) _
  case opacity =>
    obtain ⟨g, hg, rfl⟩ := hd
    have key : ∀ e ∈ opacityDecls, ∀ a, Wired theme e.1 (e.2 a) := by
      simp only [opacityDecls, List.forall_mem_cons]
      repeat' apply And.intro
      all_goals first
        | (intro x hx; exact absurd hx List.not_mem_nil)
        | (intros; wired)
    exact key _ (mem_of_lookup hg) _
  case pair =>
    obtain ⟨g, hg, rfl⟩ := hd
    have key : ∀ e ∈ pairDecls, ∀ a b, Wired theme e.1 (e.2 a b) := by
      simp only [pairDecls, List.forall_mem_cons]
      repeat' apply And.intro
      all_goals first
        | (intro x hx; exact absurd hx List.not_mem_nil)
        | (intros; wired)
    exact key _ (mem_of_lookup hg) _ _
  case spacing =>
    obtain ⟨g, hg, rfl⟩ := hd
    have key : ∀ e ∈ spacingDecls, ∀ a b c d, Wired theme e.1 (e.2 a b c d) := by
      simp only [spacingDecls, List.forall_mem_cons]
      repeat' apply And.intro
      all_goals first
        | (intro x hx; exact absurd hx List.not_mem_nil)
        | (intros; wired)
    exact key _ (mem_of_lookup hg) _ _ _ _
  case scalars =>
    obtain ⟨g, hg, rfl⟩ := hd
    have key : ∀ e ∈ scalarsDecls, ∀ a, Wired theme e.1 (e.2 a) := by
      simp only [scalarsDecls, List.forall_mem_cons]
      repeat' apply And.intro
      all_goals first
        | (intro x hx; exact absurd hx List.not_mem_nil)
        | (intros; wired)
    exact key _ (mem_of_lookup hg) _
  all_goals
    split at hd
    · rename_i hn
      subst hn
      cases hd
      wired
    · cases hd

set_option hygiene false in
local macro "given" : tactic => `(tactic| first
  | exact absurd rfl h1
  | exact absurd rfl h2
  | (apply Gives.top; simp; done)
  | (apply Gives.right; simp; done)
  | (apply Gives.bottom; simp; done)
  | (apply Gives.left; simp; done)
  | (apply Gives.second; simp; done)
  | (constructor <;> simp; done))

set_option hygiene false in
local macro "gives" : tactic => `(tactic| first
  | (simp only [Sets, Decl.writes, List.not_mem_nil] at hs; done)
  | (simp only [Sets, Decl.writes, List.mem_cons, List.not_mem_nil, or_false, Prod.mk.injEq] at hs
     first
       | (rcases hs with ⟨rfl, rfl⟩; given; done)
       | (rcases hs with ⟨rfl, rfl⟩ | ⟨rfl, rfl⟩ <;> given; done)
       | (rcases hs with ⟨rfl, rfl⟩ | ⟨rfl, rfl⟩ | ⟨rfl, rfl⟩ | ⟨rfl, rfl⟩ <;> given; done)))

theorem decl_gives {theme : ThemeEnv} {enc : Value → String} {n : String} {v : Value} {d : Decl} {f : Field} {val : Val}
    (hd : declOf enc n v = some d) (hs : Sets theme d f val) (h1 : f ≠ .autoColor) (h2 : f ≠ .visibilitySet) :
    Gives theme enc v f val := by
  cases v <;> simp only [declOf, Option.map_eq_some_iff] at hd
  case color =>
    obtain ⟨g, hg, rfl⟩ := hd
    have key : ∀ e ∈ colorDecls, ∀ a f val, Sets theme (e.2 a) f val → f ≠ .autoColor → f ≠ .visibilitySet → Gives theme enc (.color a) f val := by
      simp only [colorDecls, List.forall_mem_cons]
      repeat' apply And.intro
      all_goals first
        | (intro x hx; exact absurd hx List.not_mem_nil)
        | (intro a f val hs h1 h2; gives)
    exact key _ (mem_of_lookup hg) _ _ _ hs h1 h2
  case edge =>
    obtain ⟨g, hg, rfl⟩ := hd
    have key : ∀ e ∈ edgeDecls, ∀ a f val, Sets theme (e.2 a) f val → f ≠ .autoColor → f ≠ .visibilitySet → Gives theme enc (.edge a.kind a.color) f val := by
      simp only [edgeDecls, List.forall_mem_cons]
      repeat' apply And.intro
      all_goals first
        | (intro x hx; exact absurd hx List.not_mem_nil)
        | (intro a f val hs h1 h2; gives)
    exact key _ (mem_of_lookup hg) _ _ _ hs h1 h2
  case style =>
    obtain ⟨g, hg, rfl⟩ := hd
    have key : ∀ e ∈ styleDecls, ∀ a f val, Sets theme (e.2 a) f val → f ≠ .autoColor → f ≠ .visibilitySet → Gives theme enc (.style a) f val := by
      simp only [styleDecls, List.forall_mem_cons]
      repeat' apply And.intro
      all_goals first
        | (intro x hx; exact absurd hx List.not_mem_nil)
        | (intro a f val hs h1 h2; gives)
    exact key _ (mem_of_lookup hg) _ _ _ hs h1 h2
  case scalar a =>
    obtain ⟨g, hg, rfl⟩ := hd
    have key : ∀ e ∈ scalarDecls, ∀ f val, Sets theme (e.2 (enc (.scalar a))) f val → f ≠ .autoColor → f ≠ .visibilitySet →
        Gives theme enc (.scalar a) f val := by
      simp only [scalarDecls, List.forall_mem_cons]
      repeat' apply And.intro
      all_goals first
        | (intro x hx; exact absurd hx List.not_mem_nil)
        | (intro f val hs h1 h2; gives)
    exact key _ (mem_of_lookup hg) _ _ hs h1 h2
  case num a =>
    obtain ⟨g, hg, rfl⟩ := hd
    have key : ∀ e ∈ numDecls, ∀ f val, Sets theme (e.2 (enc (.num a))) f val → f ≠ .autoColor → f ≠ .visibilitySet →
        Gives theme enc (.num a) f val := by
      simp only [numDecls, List.forall_mem_cons]
      repeat' apply And.intro
      all_goals first
        | (intro x hx; exact absurd hx List.not_mem_nil)
        | (intro f val hs h1 h2; gives)
    exact key _ (mem_of_lookup hg) _ _ hs h1 h2
  case word a =>
    obtain ⟨g, hg, rfl⟩ := hd
    have key : ∀ e ∈ wordDecls, ∀ f val, Sets theme (e.2 (enc (.word a))) f val → f ≠ .autoColor → f ≠ .visibilitySet →
        Gives theme enc (.word a) f val := by
      simp only [wordDecls, List.forall_mem_cons]
      repeat' apply And.intro
      all_goals first
        | (intro x hx; exact absurd hx List.not_mem_nil)
        | (intro f val hs h1 h2; gives)
    exact key _ (mem_of_lookup hg) _ _ hs h1 h2
  case opacity a =>
    obtain ⟨g, hg, rfl⟩ := hd
    have key : ∀ e ∈ opacityDecls, ∀ f val, Sets theme (e.2 (enc (.opacity a))) f val → f ≠ .autoColor → f ≠ .visibilitySet →
        Gives theme enc (.opacity a) f val := by
      simp only [opacityDecls, List.forall_mem_cons]
      repeat' apply And.intro
      all_goals first
        | (intro x hx; exact absurd hx List.not_mem_nil)
        | (intro f val hs h1 h2; gives)
    exact key _ (mem_of_lookup hg) _ _ hs h1 h2
  case scalars a =>
    obtain ⟨g, hg, rfl⟩ := hd
    have key : ∀ e ∈ scalarsDecls, ∀ f val, Sets theme (e.2 (enc (.scalars a))) f val → f ≠ .autoColor → f ≠ .visibilitySet →
        Gives theme enc (.scalars a) f val := by
      simp only [scalarsDecls, List.forall_mem_cons]
      repeat' apply And.intro
      all_goals first
        | (intro x hx; exact absurd hx List.not_mem_nil)
        | (intro f val hs h1 h2; gives)
    exact key _ (mem_of_lookup hg) _ _ hs h1 h2
  case pair a b =>
    obtain ⟨g, hg, rfl⟩ := hd
    have key : ∀ e ∈ pairDecls, ∀ f val, Sets theme (e.2 (enc (.word a)) (enc (.word b))) f val →
        f ≠ .autoColor → f ≠ .visibilitySet → Gives theme enc (.pair a b) f val := by
      simp only [pairDecls, List.forall_mem_cons]
      repeat' apply And.intro
      all_goals first
        | (intro x hx; exact absurd hx List.not_mem_nil)
        | (intro f val hs h1 h2; gives)
    exact key _ (mem_of_lookup hg) _ _ hs h1 h2
  case spacing a =>
    obtain ⟨g, hg, rfl⟩ := hd
    have key : ∀ e ∈ spacingDecls, ∀ f val, Sets theme (e.2 (enc (.scalar a.top)) (enc (.scalar a.right)) (enc (.scalar a.bottom)) (enc (.scalar a.left))) f val →
        f ≠ .autoColor → f ≠ .visibilitySet → Gives theme enc (.spacing a) f val := by
      simp only [spacingDecls, List.forall_mem_cons]
      repeat' apply And.intro
      all_goals first
        | (intro x hx; exact absurd hx List.not_mem_nil)
        | (intro f val hs h1 h2; gives)
    exact key _ (mem_of_lookup hg) _ _ hs h1 h2
  case gridSize c r =>
    split at hd
    · cases hd
      cases r <;> gives
    · cases hd
  case gutter v h =>
    split at hd
    · cases hd
      cases h <;> gives
    · cases hd
  all_goals
    split at hd
    · cases hd
      gives
    · cases hd

end Textual.Parse
