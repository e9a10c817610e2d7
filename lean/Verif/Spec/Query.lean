import Verif.Spec.Tree
import Verif.Model.Query

/-! What a query stands for, used by C154. -/

namespace Textual.Tree

/-- The widgets a query is about: those the selector names that pass all its filters, in document order. -/
def Meant (root : W) (selects : Attrs → Bool) (filters : List (Attrs → Bool)) : List (List Nat) :=
  root.paths.filter (root.has fun a => selects a && filters.all (· a))

/-- The widgets of type `ty` below a widget with identity `id`. -/
def Below (root : W) (id ty : String) : List (List Nat) :=
  root.paths.filter fun p => root.has (fun a => a.typeName = ty) p &&
    (List.range p.length).any fun k => root.has (fun a => a.id = some id) (p.take k)

end Textual.Tree
