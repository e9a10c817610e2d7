/-!
Model of `/repo/crates/textual/src/lib.rs` lines 152-234: matching a key event against a binding such as
`"ctrl+p, f"`.

Strings are lists of characters.  Parameters: `ws` is `char::is_whitespace`, `lower` is
`str::to_lowercase`.  Modifiers other than SHIFT, CONTROL and ALT (crossterm's SUPER, HYPER, META) are one
flag, `other`.
-/

namespace Textual.Binding

/-- crossterm's `KeyModifiers`. Used at lib.rs:186-191. -/
structure Mods where
  ctrl : Bool := false
  shift : Bool := false
  alt : Bool := false
  other : Bool := false
deriving DecidableEq, Repr

/-- crossterm's `KeyCode`: the codes that lib.rs:199-224 names, and all others by a number. -/
inductive Key
  | enter | esc | tab | backTab | up | down | left | right | home | «end» | pageUp | pageDown
  | char (c : Char) | other (n : Nat)
deriving DecidableEq, Repr

/-- crossterm's `KeyEvent`, the fields used here. Used at lib.rs:152-160. -/
structure Event where
  code : Key
  mods : Mods
deriving DecidableEq, Repr

/-- `str::split` with a character. Used at lib.rs:165. -/
def split (sep : Char) : List Char → List (List Char)
  | [] => [[]]
  | c :: cs =>
    if c = sep then [] :: split sep cs
    else match split sep cs with
      | [] => [[c]]
      | p :: ps => (c :: p) :: ps

/-- `str::trim`. Used at lib.rs:155, 166. -/
def trim (ws : Char → Bool) (s : List Char) : List Char :=
  ((s.dropWhile ws).reverse.dropWhile ws).reverse

/-- lib.rs:199-224 `parse_key_token`. -/
def parseKeyToken (token : List Char) : Option Key :=
  if token = "enter".toList then some .enter
  else if token = "escape".toList ∨ token = "esc".toList then some .esc
  else if token = "tab".toList then some .tab
  else if token = "backtab".toList then some .backTab
  else if token = "space".toList then some (.char ' ')
  else if token = "up".toList then some .up
  else if token = "down".toList then some .down
  else if token = "left".toList then some .left
  else if token = "right".toList then some .right
  else if token = "home".toList then some .home
  else if token = "end".toList then some .end
  else if token = "pageup".toList then some .pageUp
  else if token = "pagedown".toList then some .pageDown
  else if token = "backslash".toList then some (.char '\\')
  else match token with
    | [c] => some (.char c)
    | _ => none

/-- `char::to_ascii_lowercase`. Used at lib.rs:230. -/
def asciiLower (c : Char) : Char :=
  if 'A' ≤ c ∧ c ≤ 'Z' then Char.ofNat (c.toNat + 32) else c

/-- lib.rs:226-234 `key_matches`. -/
def keyMatches : Key → Key → Bool
  | .char e, .char a => asciiLower e == asciiLower a
  | e, a => decide (e = a)

/-- lib.rs:164-178: the loop over the tokens, with the modifiers so far and the key so far. -/
def readTokens (lower : List Char → List Char) : List (List Char) → Mods → Option (List Char) →
    Mods × Option (List Char)
  | [], m, k => (m, k)
  | t :: ts, m, k =>
    let l := lower t
    if l = "ctrl".toList ∨ l = "control".toList then readTokens lower ts { m with ctrl := true } k
    else if l = "shift".toList then readTokens lower ts { m with shift := true } k
    else if l = "alt".toList then readTokens lower ts { m with alt := true } k
    else if l = "meta".toList ∨ l = "super".toList then readTokens lower ts { m with alt := true } k
    else readTokens lower ts m (some l)

/-- `KeyModifiers::contains`. Used at lib.rs:186. -/
def Mods.contains (a b : Mods) : Bool :=
  (a.ctrl || !b.ctrl) && (a.shift || !b.shift) && (a.alt || !b.alt) && (a.other || !b.other)

/-- `KeyModifiers::sub`. Used at lib.rs:190-191. -/
def Mods.minus (a b : Mods) : Mods :=
  ⟨a.ctrl && !b.ctrl, a.shift && !b.shift, a.alt && !b.alt, a.other && !b.other⟩

/-- lib.rs:160-197 `match_binding_part`. -/
def matchPart (ws : Char → Bool) (lower : List Char → List Char) (ev : Event) (part : List Char) : Bool :=
  let tokens := ((split '+' part).map (trim ws)).filter (fun t => !t.isEmpty)
  match readTokens lower tokens {} none with
  | (_, none) => false
  | (required, some token) =>
    match parseKeyToken token with
    | none => false
    | some key =>
      if !ev.mods.contains required then false
      else
        let extra := (ev.mods.minus required).minus { shift := true }
        if extra ≠ {} then false
        else keyMatches key ev.code

/-- lib.rs:152-158 `matches_binding`. -/
def matchesBinding (ws : Char → Bool) (lower : List Char → List Char) (ev : Event) (binding : List Char) : Bool :=
  (((split ',' binding).map (trim ws)).filter (fun p => !p.isEmpty)).any (matchPart ws lower ev)

end Textual.Binding
