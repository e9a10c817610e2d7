import Verif.Model.Typed

/-! What a query for a widget of a type is about, used by C186. -/

namespace Textual.Typed

namespace T

mutual
/-- The widgets that can be reached by child index, in document order. -/
def items : T → List Item
  | node i cs => i :: itemsIn cs
def itemsIn : List T → List Item
  | [] => []
  | c :: cs => items c ++ itemsIn cs
end

mutual
/-- The tree without its widgets. -/
def shape : T → T
  | node _ cs => node ⟨{}, "", false⟩ (shapeIn cs)
def shapeIn : List T → List T
  | [] => []
  | c :: cs => shape c :: shapeIn cs
end

end T

/-- The program's closure was called with the first of the widgets that are wanted, and changed this widget only; or
there is none and nothing was changed. -/
def OnFirst {R : Type} (wanted : Item → Bool) (f : Item → Item × R) (before after : T) (answer : Option R) : Prop :=
  after.shape = before.shape ∧
  match before.items.find? wanted with
  | none => answer = none ∧ after = before
  | some i => answer = some (f i).2 ∧ ∃ pre post, before.items = pre ++ i :: post ∧ (∀ j ∈ pre, wanted j = false) ∧
      after.items = pre ++ (f i).1 :: post

end Textual.Typed
