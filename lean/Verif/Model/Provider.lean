import Verif.Model.Fuzzy
import Verif.Model.Palette

/-!
Model of the two command providers of `/repo/crates/textual/src/command.rs` (lines 22-62, 126-289) and of the way
the palette asks them (`/repo/crates/textual/src/widget/command_palette.rs`, lines 1133-1162).

Simplifications: scores are rationals; lower case, letters and white space are parameters (`Fuzzy.Tables`). The
style of the matches is set before every question (command_palette.rs:1145), so it is an argument here.
-/

namespace Textual.Provider

open Textual.Fuzzy (Tables matchCandidate highlight)
open Textual.Palette (Hit)

/-- command.rs:24-29 `SystemCommand` and command.rs:128-133 `SimpleCommand`; the title of the first is the name of
the second. -/
structure Command where
  name : List Char
  action : List Char
  help : Option (List Char) := none
  discover : Bool := true
deriving DecidableEq, Repr

/-- command.rs:200-206, 254-260: the hit for a command that was found. -/
def Command.found (t : Tables) (style query : List Char) (c : Command) : Hit :=
  { score := some (matchCandidate t false query c.name).1, display := highlight t false query style c.name
    action := c.action, text := c.name, help := c.help }

/-- command.rs:194-210 and 248-264 `search`, the same for both providers. -/
def search (t : Tables) (style query : List Char) (cs : List Command) : List Hit :=
  cs.filterMap fun c => if 0 < (matchCandidate t false query c.name).1 then some (c.found t style query) else none

/-- command.rs:216-221, 276-281: the hit for a command that is offered without a query. -/
def Command.offered (c : Command) : Hit :=
  { score := none, display := Markup.escape c.name, action := c.action, text := c.name, help := c.help }

/-- command.rs:212-223 `SimpleProvider::discover`. -/
def simpleDiscover (cs : List Command) : List Hit := (cs.filter (·.discover)).map Command.offered

/-- Inserts a command in front of the first one whose title does not precede its own.
One step of `sort_by`, command.rs:273. -/
def insertTitle (a : Command) : List Command → List Command
  | [] => [a]
  | b :: bs => if b.name < a.name then b :: insertTitle a bs else a :: b :: bs

/-- command.rs:273 `sort_by` with the titles; a stable sort, as insertion sort is. Texts are compared by their
bytes, which is the order of their characters. -/
def sortTitles : List Command → List Command
  | [] => []
  | a :: as => insertTitle a (sortTitles as)

/-- command.rs:266-283 `SystemCommandsProvider::discover`. -/
def systemDiscover (cs : List Command) : List Hit := (sortTitles (cs.filter (·.discover))).map Command.offered

/-- command_palette.rs:921: the style of the matches. -/
def matchStyle : List Char := "bold underline".toList

/-- command_palette.rs:1142-1159 with command.rs:192-228: what the palette gets from a `SimpleProvider`. -/
def simple (t : Tables) (cs : List Command) : Palette.Provider := fun _ query =>
  if query.isEmpty then simpleDiscover cs else search t matchStyle query cs

/-- command_palette.rs:1142-1159 with command.rs:246-288: what the palette gets from a `SystemCommandsProvider`,
the only provider of an application that does not say otherwise (lib.rs:389-393). -/
def system (t : Tables) (cs : List Command) : Palette.Provider := fun _ query =>
  if query.isEmpty then systemDiscover cs else search t matchStyle query cs

end Textual.Provider

namespace Textual.Provider

/-- lib.rs:346-376 `command_palette_commands` and lib.rs:379-384 `get_system_commands`: the commands of an
application that does not say otherwise. -/
def defaultCommands : List Command := [
  { name := "Keys".toList, action := "app.keys".toList
    help := some "Show help for the focused widget and a summary of available keys".toList },
  { name := "Maximize".toList, action := "app.maximize".toList, help := some "Maximize the focused widget".toList },
  { name := "Quit".toList, action := "app.quit".toList
    help := some "Quit the application as soon as possible".toList },
  { name := "Screenshot".toList, action := "app.screenshot".toList
    help := some "Save an SVG 'screenshot' of the current screen".toList },
  { name := "Theme".toList, action := "app.theme".toList, help := some "Change the current theme".toList }]

/-- What an action makes happen. -/
inductive Effect
  | custom
  | quit
  | bell
  | submitPalette
  | openPalette
  | nothing
deriving DecidableEq, Repr

/-- lib.rs:461-508 `dispatch_action`: `handled` is the answer of `on_action`, `palette` is
`ENABLE_COMMAND_PALETTE`. -/
def dispatch (handled : List Char → Bool) (palette : Bool) (action : List Char) : Effect :=
  if handled action then .custom
  else if action = "app.quit".toList ∨ action = "quit".toList then .quit
  else if action = "app.bell".toList ∨ action = "bell".toList then .bell
  else if action = "app.command_palette.submit".toList ∨ action = "command_palette.submit".toList then .submitPalette
  else if action = "app.command_palette".toList ∨ action = "command_palette".toList then
    if palette then .openPalette else .nothing
  else .nothing

end Textual.Provider
