import Verif.Model.Parse
import Verif.Model.Cascade

/-!
# The combined stylesheet

Model of how the styles that widgets bring along are put together with the stylesheet of the application
(lib.rs:115-150) and when (lib.rs:703-709, 751-790).
-/

namespace Textual.Defaults

open Css
open RgbaColor (Outcome)

/-- A widget with its `default_css` and its children (widget.rs:156 and `for_each_child`). -/
inductive Wid where
  | node (css : List Char) (children : List Wid)

mutual
/-- lib.rs:120-128 `collect_default_css`: what is put into the set, in the order of the walk. -/
def Wid.collect : Wid → List (List Char)
  | .node css children => (if css ≠ [] then [css] else []) ++ collectAll children

/-- The children of lib.rs:125-127. -/
def collectAll : List Wid → List (List Char)
  | [] => []
  | w :: ws => w.collect ++ collectAll ws
end

/-- The orders in which a `HashSet` of these elements may be walked through (lib.rs:134, 144). -/
def Enumerates (order collected : List (List Char)) : Prop := order.Nodup ∧ ∀ t, t ∈ order ↔ t ∈ collected

/-- lib.rs:133-150 `build_combined_css` for one order of the set; testing.rs:28-40 is the same with an empty base. -/
def combined (base : List Char) (order : List (List Char)) (app : List Char) : List Char :=
  base ++ '\n' :: (order.flatMap (· ++ ['\n']) ++ app)

/-- The rules of a text whose comments and variables are gone (mod.rs:115-126), with the declarations as the cascade
has them (`decode`). -/
def rulesOf {V : Type} (ws alnum : Char → Bool) (known : List Char → Option (Parse.Q V)) (decode : Parse.Written V → Decl)
    (text : List Char) : Outcome (List (FlatRule Decl)) :=
  Parse.Outcome.bind (Parse.sheet ws alnum known text) fun rules =>
    .ok ((flattenStylesheet rules).map fun r => ⟨r.selectors, r.decls.map decode⟩)

/-- The stylesheet of an application after its widgets have been rebuilt any number of times: the one made of the
first tree (lib.rs:707; the rebuild, lib.rs:751-790, uses the same `stylesheet`). -/
def sheetOf (base app : List Char) (order : List (List Char) → List (List Char)) : List Wid → List Char
  | [] => combined base [] app
  | first :: _ => combined base (order first.collect) app

end Textual.Defaults
