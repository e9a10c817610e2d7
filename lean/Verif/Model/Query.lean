import Verif.Model.Tree

/-! Queries over the widget tree as the program builds them: a selector, filters, then an operation.
tree.rs:396-402, 804-842, 866-1125. -/

namespace Textual.Tree

/-- tree.rs:866-873 `DOMQuery`: the tree, the selector, and the optional filter. -/
structure DOMQuery where
  root : W
  selector : SimpleSelector
  filterFn : Option (Attrs → Bool) := none

/-- tree.rs:396-402 `WidgetTree::query`, tree.rs:877-883 `DOMQuery::new`. -/
def query (ws : Char → Bool) (root : W) (selector : List Char) : DOMQuery :=
  { root := root, selector := parseSelector ws selector }

namespace DOMQuery

/-- tree.rs:903-909 `filter`. -/
def filter (q : DOMQuery) (predicate : Attrs → Bool) : DOMQuery := { q with filterFn := some predicate }

/-- The test at tree.rs:823 (`find_all_and_apply_filtered`), tree.rs:1084 and 1111, and without a filter
tree.rs:799, 1058. -/
def test (q : DOMQuery) (a : Attrs) : Bool :=
  match q.filterFn with
  | some filter => q.selector.matches a && filter a
  | none => q.selector.matches a

/-- tree.rs:915-924 `for_each`. -/
def forEach (q : DOMQuery) (f : Attrs → Attrs) : DOMQuery := { q with root := q.root.applyAll q.test f }

/-- tree.rs:927-931 `count`. -/
def count (q : DOMQuery) : Nat := q.root.countAll q.test

/-- tree.rs:936-959 `first`: the new tree and whether the closure ran. -/
def first (q : DOMQuery) (f : Attrs → Attrs) : W × Bool := q.root.applyFirst q.test f

/-- tree.rs:964-997 `last`. -/
def last (q : DOMQuery) (f : Attrs → Attrs) : W × Bool := q.root.applyLast q.test f

/-- tree.rs:1004-1007 `add_class`; what each widget does with a class is in `Verif.Model.Classes`. -/
def addClass (q : DOMQuery) (c : String) : DOMQuery :=
  q.forEach fun a => { a with classes := if c ∈ a.classes then a.classes else a.classes ++ [c] }

/-- tree.rs:1010-1013 `remove_class`. -/
def removeClass (q : DOMQuery) (c : String) : DOMQuery :=
  q.forEach fun a => { a with classes := a.classes.filter (· ≠ c) }

/-- tree.rs:1033-1035 `set_visible`. -/
def setVisible (q : DOMQuery) (visible : Bool) : DOMQuery := q.forEach fun a => { a with visible := visible }

/-- tree.rs:1038-1040 `set_disabled`. -/
def setDisabled (q : DOMQuery) (disabled : Bool) : DOMQuery := q.forEach fun a => { a with disabled := disabled }

end DOMQuery

end Textual.Tree
