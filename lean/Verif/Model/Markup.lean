/-!
# Rich markup: lexer, tag parser, span parser and segments

`crates/rich/src`. Text is a list of characters; positions are byte offsets (UTF-8), as in the code.
Error payloads are not modelled: every `Err` is `Res.err`. A Rust panic is `Res.panic`.
-/

namespace Textual.Markup

/-- Result of a call that may return `Err` or panic. -/
inductive Res (α : Type) where
  | ok (a : α)
  | err
  | panic
deriving DecidableEq, Repr

/-- The `?` operator (and propagation of a panic). -/
def Res.bind {α β : Type} : Res α → (α → Res β) → Res β
  | .ok a, f => f a
  | .err, _ => .err
  | .panic, _ => .panic

instance : Monad Res where
  pure := .ok
  bind := Res.bind

def Res.ofOption {α : Type} : Option α → Res α
  | some a => .ok a
  | none => .err

/-- Code outside the model: Unicode tables, the body of `rgb(...)` (color.rs:97-118, comma split and
`u8` parsing, returns `Err` on bad input) and the list of colour names (color.rs:133-213). -/
structure Ext where
  ws : Char → Bool
  lower : List Char → List Char
  rgbBody : List Char → Option (Nat × Nat × Nat)
  known : List Char → Bool

/-- `str::len`: number of UTF-8 bytes. -/
def blen (s : List Char) : Nat := (s.map Char.utf8Size).sum

/-- `str::trim`. Used at rich/src/parser/tag.rs:41, 49, 86, 100-101. -/
def trim (ws : Char → Bool) (s : List Char) : List Char :=
  ((s.dropWhile ws).reverse.dropWhile ws).reverse

/-! ### Colours and styles -/

/-- color.rs:8-13 `Color`. -/
inductive Color where
  | named (name : List Char)
  | rgb (r g b : Nat)
deriving DecidableEq, Repr

/-- `hex.chars().nth(i).unwrap()` in color.rs:58-70: panics when there is no such character. -/
def nth (s : List Char) (i : Nat) : Res Char :=
  match s[i]? with
  | some c => .ok c
  | none => .panic

/-- color.rs:77-87 `parse_hex_digit`. -/
def hexDigit (c : Char) : Res Nat :=
  if '0' ≤ c ∧ c ≤ '9' then .ok (c.toNat - '0'.toNat)
  else if 'a' ≤ c ∧ c ≤ 'f' then .ok (c.toNat - 'a'.toNat + 10)
  else if 'A' ≤ c ∧ c ≤ 'F' then .ok (c.toNat - 'A'.toNat + 10)
  else .err

/-- color.rs:89-93 `parse_hex_pair`. -/
def hexPair (c1 c2 : Char) : Res Nat := do
  let high ← hexDigit c1
  let low ← hexDigit c2
  return high * 16 + low

/-- color.rs:55-75 `parse_hex`: the length tested is the number of bytes, the characters are taken by
character index. -/
def parseHex (hex : List Char) : Res Color :=
  if blen hex = 3 then do
    let r ← hexDigit (← nth hex 0)
    let g ← hexDigit (← nth hex 1)
    let b ← hexDigit (← nth hex 2)
    return .rgb (r * 17) (g * 17) (b * 17)
  else if blen hex = 6 then do
    let r ← hexPair (← nth hex 0) (← nth hex 1)
    let g ← hexPair (← nth hex 2) (← nth hex 3)
    let b ← hexPair (← nth hex 4) (← nth hex 5)
    return .rgb r g b
  else .err

/-- color.rs:33-52 `Color::parse` (with `parse_named`, color.rs:121-130). -/
def Color.parse (ext : Ext) (input : List Char) : Res Color :=
  let input := trim ext.ws input
  match input with
  | [] => .err
  | '#' :: hex => parseHex hex
  | _ =>
    if "rgb(".toList.isPrefixOf input && input.getLast? == some ')' then
      .ofOption ((ext.rgbBody ((input.drop 4).dropLast)).map fun (r, g, b) => Color.rgb r g b)
    else
      let name := ext.lower input
      if ext.known name then .ok (.named name) else .err

/-- style.rs:10-25 `TextStyle`. -/
structure TextStyle where
  bold : Bool := false
  dim : Bool := false
  italic : Bool := false
  underline : Bool := false
  strike : Bool := false
  reverse : Bool := false
  blink : Bool := false
deriving DecidableEq, Repr

/-- style.rs:40-50 `TextStyle::apply`. -/
def TextStyle.apply (self other : TextStyle) : TextStyle where
  bold := self.bold || other.bold
  dim := self.dim || other.dim
  italic := self.italic || other.italic
  underline := self.underline || other.underline
  strike := self.strike || other.strike
  reverse := self.reverse || other.reverse
  blink := self.blink || other.blink

/-- style.rs:29-37 `TextStyle::is_empty`. -/
def TextStyle.isEmpty (s : TextStyle) : Bool :=
  !s.bold && !s.dim && !s.italic && !s.underline && !s.strike && !s.reverse && !s.blink

/-- style.rs:54-62 `Style`. -/
structure Style where
  fg : Option Color := none
  bg : Option Color := none
  text : TextStyle := {}
deriving DecidableEq, Repr

/-- style.rs:71-73 `Style::is_empty`. -/
def Style.isEmpty (s : Style) : Bool := s.fg.isNone && s.bg.isNone && s.text.isEmpty

/-- style.rs:79-85 `Style::apply`. -/
def Style.apply (self other : Style) : Style where
  fg := other.fg.or self.fg
  bg := other.bg.or self.bg
  text := self.text.apply other.text

/-- style.rs:156-173 `Style::parse_modifier`. -/
def modifier (word : List Char) : Option TextStyle :=
  match String.ofList word with
  | "bold" | "b" => some { bold := true }
  | "dim" | "d" => some { dim := true }
  | "italic" | "i" => some { italic := true }
  | "underline" | "u" => some { underline := true }
  | "strike" | "s" | "strikethrough" => some { strike := true }
  | "reverse" | "r" => some { reverse := true }
  | "blink" => some { blink := true }
  | _ => none

/-- `str::split_whitespace`: `cur` is the word being read. Used at rich/src/style.rs:115. -/
def wordsLoop (ws : Char → Bool) (cur : List Char) : List Char → List (List Char)
  | [] => if cur.isEmpty then [] else [cur]
  | c :: cs =>
    if ws c then (if cur.isEmpty then [] else [cur]) ++ wordsLoop ws [] cs
    else wordsLoop ws (cur ++ [c]) cs

/-- `str::split_whitespace`. Used at rich/src/style.rs:115. -/
def words (ws : Char → Bool) (s : List Char) : List (List Char) := wordsLoop ws [] s

/-- The word loop of `Style::parse` (style.rs:120-154). -/
def styleWords (ext : Ext) (st : Style) : List (List Char) → Res Style
  | [] => .ok st
  | [word] =>
    if ext.lower word = "on".toList then .err
    else
      match modifier (ext.lower word) with
      | some t => .ok { st with text := st.text.apply t }
      | none =>
        match Color.parse ext (ext.lower word) with
        | .ok c => .ok { st with fg := some c }
        | .panic => .panic
        | .err =>
          match Color.parse ext word with
          | .ok c => .ok { st with fg := some c }
          | .panic => .panic
          | .err => .err
  | word :: next :: rest =>
    if ext.lower word = "on".toList then
      (Color.parse ext next).bind fun c => styleWords ext { st with bg := some c } rest
    else
      match modifier (ext.lower word) with
      | some t => styleWords ext { st with text := st.text.apply t } (next :: rest)
      | none =>
        match Color.parse ext (ext.lower word) with
        | .ok c => styleWords ext { st with fg := some c } (next :: rest)
        | .panic => .panic
        | .err =>
          match Color.parse ext word with
          | .ok c => styleWords ext { st with fg := some c } (next :: rest)
          | .panic => .panic
          | .err => .err

/-- style.rs:111-157 `Style::parse`. -/
def Style.parse (ext : Ext) (input : List Char) : Res Style :=
  let input := trim ext.ws input
  if input.isEmpty then .err else styleWords ext {} (words ext.ws input)

/-! ### Tags -/

/-- rich/src/span.rs:23, the map of metadata. -/
abbrev Meta := List (List Char × List Char)

/-- tag.rs:11-22 `TagContent`. -/
inductive Tag where
  | style (s : Style)
  | info (key value : List Char)
  | closeAll
  | closeStyle (name : List Char)
deriving DecidableEq, Repr

/-- tag.rs:97-108 `parse_meta`. -/
def parseMeta (ext : Ext) (content : List Char) : Tag :=
  match content.findIdx? (· == '=') with
  | some i => .info ('@' :: trim ext.ws (content.take i)) (trim ext.ws (content.drop (i + 1)))
  | none => .info ('@' :: trim ext.ws content) []

/-- tag.rs:76-98 `parse_link` (the prefix, `link=` or `link `, has five characters). -/
def parseLink (ext : Ext) (content : List Char) : Tag :=
  let v := trim ext.ws (content.drop 5)
  let v := v.dropWhile (· == '\'')
  let v := v.dropWhile (· == '"')
  let v := (v.reverse.dropWhile (· == '\'')).reverse
  let v := (v.reverse.dropWhile (· == '"')).reverse
  .info "@link".toList v

/-- tag.rs:40-73 `TagContent::parse`. -/
def Tag.parse (ext : Ext) (content : List Char) : Res Tag :=
  let content := trim ext.ws content
  match content with
  | [] => .err
  | '/' :: rest =>
    let rest := trim ext.ws rest
    .ok (if rest.isEmpty then .closeAll else .closeStyle rest)
  | '@' :: rest => .ok (parseMeta ext rest)
  | _ =>
    if "link=".toList.isPrefixOf content || "link ".toList.isPrefixOf content then
      .ok (parseLink ext content)
    else (Style.parse ext content).bind fun s => .ok (.style s)

/-! ### Lexer -/

/-- lexer.rs:9-18 `Token`. -/
inductive Token where
  | text (s : List Char)
  | open (content : List Char)
  | close (spec : Option (List Char))
  | esc (c : Char)
deriving DecidableEq, Repr

/-- The bracket scan of `consume_tag` (lexer.rs:89-114): content and rest after the closing bracket;
`none` is the unclosed tag. The depth is `d + 1`. -/
def tagBody (d : Nat) : List Char → Option (List Char × List Char)
  | [] => none
  | c :: cs =>
    if c = '[' then (tagBody (d + 1) cs).map fun (a, r) => (c :: a, r)
    else if c = ']' then
      match d with
      | 0 => some ([], cs)
      | d + 1 => (tagBody d cs).map fun (a, r) => (c :: a, r)
    else if c = '\\' then
      match cs with
      | [] => none
      | e :: cs => (tagBody d cs).map fun (a, r) => (c :: e :: a, r)
    else (tagBody d cs).map fun (a, r) => (c :: a, r)

/-- lexer.rs:119-133: token for a tag with the given content. -/
def tagToken (ws : Char → Bool) : List Char → Res Token
  | [] => .err
  | '/' :: rest =>
    let rest := trim ws rest
    .ok (.close (if rest.isEmpty then none else some rest))
  | content => .ok (.open content)

/-- Characters that end a run of text (lexer.rs:64-66). -/
def special (c : Char) : Bool := c == '[' || c == '\\'

theorem tagBody_length (d : Nat) (cs : List Char) :
    ∀ a r, tagBody d cs = some (a, r) → r.length < cs.length := by
  fun_induction tagBody d cs <;> intro a r h
  · simp at h
  · rename_i ih
    simp only [Option.map_eq_some_iff] at h
    obtain ⟨⟨a', r'⟩, hb, heq⟩ := h
    have := ih _ _ hb
    simp only [Prod.mk.injEq] at heq
    simp [← heq.2]; omega
  · simp at h; simp [← h.2]
  · rename_i ih
    simp only [Option.map_eq_some_iff] at h
    obtain ⟨⟨a', r'⟩, hb, heq⟩ := h
    have := ih _ _ hb
    simp only [Prod.mk.injEq] at heq
    simp [← heq.2]; omega
  · simp at h
  · rename_i ih
    simp only [Option.map_eq_some_iff] at h
    obtain ⟨⟨a', r'⟩, hb, heq⟩ := h
    have := ih _ _ hb
    simp only [Prod.mk.injEq] at heq
    simp [← heq.2]; omega
  · rename_i ih
    simp only [Option.map_eq_some_iff] at h
    obtain ⟨⟨a', r'⟩, hb, heq⟩ := h
    have := ih _ _ hb
    simp only [Prod.mk.injEq] at heq
    simp [← heq.2]; omega

/-- `Lexer` run to the end, as collected by `parse` (lexer.rs:61-175, parser/markup.rs:30-31):
the first error is the result. -/
def lex (ws : Char → Bool) : List Char → Res (List Token)
  | [] => .ok []
  | c :: cs =>
    if c = '[' then
      match h : tagBody 0 cs with
      | none => .err
      | some (content, rest) =>
        (tagToken ws content).bind fun t => (lex ws rest).bind fun ts => .ok (t :: ts)
    else if c = '\\' then
      match cs with
      | [] => .err
      | e :: rest =>
        if e = '[' ∨ e = ']' ∨ e = '\\' then (lex ws rest).bind fun ts => .ok (.esc e :: ts)
        else .err
    else
      (lex ws (cs.dropWhile fun x => !special x)).bind fun ts =>
        .ok (.text (c :: cs.takeWhile fun x => !special x) :: ts)
termination_by cs => cs.length
decreasing_by
  · have := tagBody_length _ _ _ _ h
    simp; omega
  · simp; omega
  · have := (List.dropWhile_suffix (l := cs) (fun x => !special x)).length_le
    simp; omega

/-! ### Span parser -/

/-- span.rs:15-25 `Span`. -/
structure Span where
  start : Nat
  stop : Nat
  style : Style
  info : Meta
deriving DecidableEq, Repr

/-- span.rs `Span::contains`. See rich/src/span.rs:72. -/
def Span.contains (s : Span) (offset : Nat) : Bool := decide (s.start ≤ offset ∧ offset < s.stop)

/-- parser/markup.rs:57-66 `StackEntry`. -/
structure Entry where
  style : Style
  info : Meta
  start : Nat
  tag : List Char
deriving DecidableEq, Repr

/-- parser/markup.rs:46-53 `Parser`; the head of `stack` is the most recent entry. -/
structure Parser where
  stack : List Entry := []
  output : List Char := []
  spans : List Span := []
deriving DecidableEq, Repr

/-- parser/markup.rs:189-197 `create_span_from_entry`. -/
def Parser.createSpan (p : Parser) (e : Entry) : Parser :=
  if e.start < blen p.output ∧ (!e.style.isEmpty || !e.info.isEmpty) then
    { p with spans := p.spans ++ [⟨e.start, blen p.output, e.style, e.info⟩] }
  else p

/-- parser/markup.rs:138-146 `push_style`. -/
def Parser.push (p : Parser) (style : Style) (info : Meta) (tag : List Char) : Parser :=
  { p with stack := ⟨style, info, blen p.output, tag⟩ :: p.stack }

/-- parser/markup.rs:149-153 `pop_style`. -/
def Parser.pop (p : Parser) : Parser :=
  match p.stack with
  | [] => p
  | e :: rest => { p with stack := rest }.createSpan e

/-- `str::contains`. -/
def containsSub (needle : List Char) : List Char → Bool
  | [] => needle.isEmpty
  | c :: cs => needle.isPrefixOf (c :: cs) || containsSub needle cs

/-- parser/markup.rs:176-186 `entry_matches`. -/
def tagMatches (lower : List Char → List Char) (tag name : List Char) : Bool :=
  lower tag == lower name || (lower name ++ [' ']).isPrefixOf (lower tag)
    || containsSub (' ' :: lower name) (lower tag)

/-- parser/markup.rs:160-167: entries popped (most recent first) and entries kept. -/
def splitMatching (lower : List Char → List Char) (name : List Char) :
    List Entry → List Entry × List Entry
  | [] => ([], [])
  | e :: rest =>
    if tagMatches lower e.tag name then ([e], rest)
    else ((e :: (splitMatching lower name rest).1), (splitMatching lower name rest).2)

/-- parser/markup.rs:156-173 `pop_style_matching`. -/
def Parser.popMatching (lower : List Char → List Char) (p : Parser) (name : List Char) : Parser :=
  (splitMatching lower name p.stack).1.foldl (fun q e => q.createSpan e)
    { p with stack := (splitMatching lower name p.stack).2 }

/-- parser/markup.rs:77-135 `process_token`, `process_open_tag`, `process_close_tag`. -/
def Parser.step (ext : Ext) (p : Parser) : Token → Res Parser
  | .text s => .ok { p with output := p.output ++ s }
  | .esc c => .ok { p with output := p.output ++ [c] }
  | .close none => .ok p.pop
  | .close (some name) => .ok (p.popMatching ext.lower name)
  | .open content =>
    (Tag.parse ext content).bind fun t =>
      match t with
      | .style s => .ok (p.push s [] content)
      | .info k v => .ok (p.push {} [(k, v)] content)
      | .closeAll => .ok p.pop
      | .closeStyle name => .ok (p.popMatching ext.lower name)

/-- The token loop of `parse` (parser/markup.rs:34-37). -/
def Parser.run (ext : Ext) (p : Parser) : List Token → Res Parser
  | [] => .ok p
  | t :: ts => (p.step ext t).bind fun q => q.run ext ts

/-- parser/markup.rs:200-204 `close_all_remaining`. -/
def Parser.closeAll (p : Parser) : Parser :=
  p.stack.foldl (fun q e => q.createSpan e) { p with stack := [] }

/-- markup.rs:22-28 `ParsedMarkup`. -/
structure Parsed where
  text : List Char
  spans : List Span
deriving DecidableEq, Repr

/-- parser/markup.rs:28-43 `parse`. -/
def parse (ext : Ext) (input : List Char) : Res Parsed :=
  (lex ext.ws input).bind fun tokens =>
    (({} : Parser).run ext tokens).bind fun p =>
      .ok ⟨p.closeAll.output, p.closeAll.spans⟩

/-! ### Reading the result -/

/-- markup.rs:108-116 `style_at`. -/
def Parsed.styleAt (m : Parsed) (offset : Nat) : Style :=
  m.spans.foldl (fun acc s => if s.contains offset then acc.apply s.style else acc) {}

/-- `HashMap::insert` of every entry of `new` into `old`; the map is an association list whose first
entry for a key counts. Used at rich/src/markup.rs:165, rich/src/parser/markup.rs:108. -/
def Meta.insertAll (old new : Meta) : Meta := new.foldl (fun acc kv => kv :: acc) old

/-- The meta part of `SegmentIterator::next` (markup.rs:153-162). -/
def Parsed.metaAt (m : Parsed) (offset : Nat) : Meta :=
  m.spans.foldl (fun acc s => if s.contains offset then Meta.insertAll acc s.info else acc) []

/-- markup.rs:139-149: the end of the segment that starts at `pos`. -/
def Parsed.segmentEnd (m : Parsed) (pos : Nat) : Nat :=
  m.spans.foldl (fun stop s =>
    let stop := if pos < s.start ∧ s.start < stop then s.start else stop
    if pos < s.stop ∧ s.stop < stop then s.stop else stop) (blen m.text)

/-- Split a text after `n` bytes; `none` is the panic of a slice inside a character or past the end. -/
def splitBytes : Nat → List Char → Option (List Char × List Char)
  | 0, cs => some ([], cs)
  | _ + 1, [] => none
  | n + 1, c :: cs =>
    if c.utf8Size ≤ n + 1 then (splitBytes (n + 1 - c.utf8Size) cs).map fun (a, r) => (c :: a, r)
    else none
termination_by _ cs => cs.length

/-- A segment as yielded by the iterator (markup.rs:132). -/
structure Segment where
  text : List Char
  style : Style
  info : Meta
deriving DecidableEq, Repr

/-- `SegmentIterator` run to the end (markup.rs:119-170); `rest` is the text from byte `pos` on.
`none` is a panic; the fuel is an upper bound for the number of segments. -/
def Parsed.segmentsFrom (m : Parsed) : Nat → Nat → List Char → Option (List Segment)
  | 0, pos, _ => if blen m.text ≤ pos then some [] else none
  | fuel + 1, pos, rest =>
    if blen m.text ≤ pos then some []
    else
      match splitBytes (m.segmentEnd pos - pos) rest with
      | none => none
      | some (a, rest') =>
        (m.segmentsFrom fuel (m.segmentEnd pos) rest').map fun segs =>
          ⟨a, m.styleAt pos, m.metaAt pos⟩ :: segs

/-- markup.rs:101-103 `segments`. -/
def Parsed.segments (m : Parsed) : Option (List Segment) :=
  m.segmentsFrom m.text.length 0 m.text

/-! ### Escaping (crates/textual/src/fuzzy.rs:219-235, command.rs:8-20) -/

/-- fuzzy.rs:227-235 `push_escaped_char`. -/
def escapeChar (c : Char) : List Char :=
  if c = '[' ∨ c = ']' ∨ c = '\\' then ['\\', c] else [c]

/-- fuzzy.rs:219-225 `escape_markup`. -/
def escape (s : List Char) : List Char := s.flatMap escapeChar

end Textual.Markup
