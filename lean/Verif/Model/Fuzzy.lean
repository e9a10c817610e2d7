import Verif.Model.Markup

/-!
# Fuzzy search and highlighting

`crates/textual/src/fuzzy.rs`. Scores (`f32`) are exact rationals. The Unicode tables used
(`to_lowercase`, `is_alphanumeric`, `is_whitespace`) are parameters.
-/

namespace Textual.Fuzzy

/-- Unicode tables. Used at fuzzy.rs:30, 199. -/
structure Tables where
  lower : List Char → List Char
  alnum : Char → Bool
  ws : Char → Bool

/-- fuzzy.rs:197-200 `is_word_char`. -/
def isWord (t : Tables) (c : Char) : Bool := t.alnum c || c == '_'

/-- fuzzy.rs:202-213 `first_letter_positions`: `i` is the index of the head, `inWord` the flag. -/
def firstLetters (t : Tables) (inWord : Bool) : Nat → List Char → List Nat
  | _, [] => []
  | i, c :: cs =>
    (if isWord t c && !inWord then [i] else []) ++ firstLetters t (isWord t c) (i + 1) cs

/-- fuzzy.rs:127-135: number of breaks between consecutive offsets. -/
def breaks : Nat → List Nat → Nat
  | _, [] => 0
  | last, o :: os => (if o ≠ last + 1 then 1 else 0) + breaks o os

/-- fuzzy.rs:114-140 `score`. -/
def score (t : Tables) (candidate : List Char) : List Nat → Rat
  | [] => 0
  | p :: ps =>
    let positions := p :: ps
    let first := firstLetters t false 0 candidate
    let count : Rat := (positions.length : Nat)
    let firsts : Rat := ((positions.filter fun x => first.contains x).length : Nat)
    let groups : Rat := ((1 + breaks p ps : Nat) : Rat)
    let normalized := (count - (groups - 1)) / count
    (count + firsts) * (1 + normalized * normalized)

/-- `candidate.find(&query)` followed by `byte_to_char_index` (fuzzy.rs:34-35, 215-217): the index of
the first occurrence, in characters. -/
def find (query : List Char) : List Char → Option Nat
  | [] => if query.isEmpty then some 0 else none
  | c :: cs => if query.isPrefixOf (c :: cs) then some 0 else (find query cs).map (· + 1)

/-- The inner loop fuzzy.rs:52-61: scan from `index` (the head of the list) on, until `last`. -/
def scan (letter : Char) (last : Nat) : Nat → List Char → List Nat
  | _, [] => []
  | index, c :: cs =>
    (if c = letter then [index] else []) ++
      (if last ≤ index + 1 then [] else scan letter last (index + 1) cs)

/-- The loop fuzzy.rs:46-67 over the query letters; `none` is the early `return (0.0, [])`. -/
def letterPositions (candidate : List Char) : Nat → Nat → List Char → Option (List (List Nat))
  | _, _, [] => some []
  | offset, position, letter :: rest =>
    match scan letter (candidate.length - offset) position (candidate.drop position) with
    | [] => none
    | x :: xs => (letterPositions candidate (offset + 1) (x + 1) rest).map fun r => (x :: xs) :: r

/-- `offsets.last().map_or(true, |last| pos > *last)` (fuzzy.rs:81). -/
def after : Option Nat → Nat → Bool
  | none, _ => true
  | some last, pos => decide (last < pos)

/-- fuzzy.rs:73-91 `collect_offsets`: the choices in depth-first order. -/
def collect (last : Option Nat) : List (List Nat) → List (List Nat)
  | [] => [[]]
  | ps :: rest => (ps.filter (after last)).flatMap fun p => (collect (some p) rest).map (p :: ·)

/-- fuzzy.rs:101-109: keep the first choice with the highest score. -/
def best (sc : List Nat → Rat) (choices : List (List Nat)) : Rat × List Nat :=
  choices.foldl (fun acc o => if acc.1 < sc o then (sc o, o) else acc) (0, [])

/-- fuzzy.rs:22-112 `match_candidate`. -/
def matchCandidate (t : Tables) (caseSensitive : Bool) (query candidate : List Char) :
    Rat × List Nat :=
  if query.isEmpty || candidate.isEmpty then (0, [])
  else
    let q := if caseSensitive then query else t.lower query
    let c := if caseSensitive then candidate else t.lower candidate
    match find q c with
    | some start =>
      let offsets := (List.range q.length).map (start + ·)
      (score t c offsets * (if c = q then 2 else 3 / 2), offsets)
    | none =>
      match letterPositions c 0 0 q with
      | none => (0, [])
      | some all => best (score t c) (collect none all)

/-- The loop of `highlight` (fuzzy.rs:181-193): `i` is the index of the head. -/
def highlightLoop (ws : Char → Bool) (style : List Char) (offsets : List Nat) :
    Nat → List Char → List Char
  | _, [] => []
  | i, c :: cs =>
    (if offsets.contains i && !ws c && !style.isEmpty then
      '[' :: style ++ ']' :: Markup.escapeChar c ++ "[/]".toList
    else Markup.escapeChar c) ++ highlightLoop ws style offsets (i + 1) cs

/-- fuzzy.rs:173-195 `Matcher::highlight`. -/
def highlight (t : Tables) (caseSensitive : Bool) (query style candidate : List Char) : List Char :=
  let r := matchCandidate t caseSensitive query candidate
  if r.1 ≤ 0 then Markup.escape candidate
  else highlightLoop t.ws style r.2 0 candidate

end Textual.Fuzzy
