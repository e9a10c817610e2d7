import Verif.Props.Values
import Verif.Props.Source

/-!
C129, C130: whole stylesheets, from the source text with its comments and variables to the flat rules; what is
read otherwise than written. -/

namespace Textual.Parse

open Css Sheet
open RgbaColor (Outcome)
open Source (isName unlines Piece Proper NoOpener HasPair)
open Layout (Scalar Spacing)

variable {env : Env}

/-- A source without comments and variables goes to the rule parser as it is. -/
theorem preprocess_plain (ws alnum : Char → Bool) {ls : List (List Char)}
    (h : ∀ l ∈ ls, '\n' ∉ l ∧ l.getLast? ≠ some '\r') (hc : NoOpener (unlines ls)) (hd : '$' ∉ unlines ls) :
    Source.preprocess ws alnum (unlines ls) = unlines ls := by
  have hdl : ∀ l ∈ ls, '$' ∉ l := by
    intro l hl hm
    exact hd (List.mem_flatMap.2 ⟨l, hl, by simp [hm]⟩)
  have hmem : ∀ (l : List Char) (c : Char), c ∈ Source.trim ws l → c ∈ l := by
    intro l c hc
    unfold Source.trim at hc
    have h1 := List.mem_reverse.1 hc
    have h2 := (List.dropWhile_suffix _).subset h1
    exact (List.dropWhile_suffix _).subset (List.mem_reverse.1 h2)
  unfold Source.preprocess
  simp only
  rw [Source.stripComments_id _ hc, Source.resolveVariables_lines _ _ _ _ h hc.1]
  rw [List.filter_eq_self.2]
  · congr 1
    refine (List.map_congr_left (g := id) ?_).trans (List.map_id _)
    intro l hl
    exact Source.resolveLine_id _ _ _ (hdl l hl)
  · intro l hl
    simp only [decide_eq_true_eq, ne_eq]
    intro he
    exact hdl l hl (hmem l _ (List.mem_of_mem_head? he))

/-- C129: rules written in any source text, with comments between them, are the rules that come out, flat. -/
theorem parse_source {V : Type} {ws alnum : Char → Bool} {known : List Char → Option (Q V)}
    {text important : List Char → V → List Char → Prop} (hp : Plain ws alnum)
    (hf : Faithful known text important) {ps : List Piece} {ls : List (List Char)}
    {rules : List (List Complex × Items (Written V))} (hps : Proper ps) (hk : ps.flatMap Piece.kept = unlines ls)
    (h : ∀ l ∈ ls, '\n' ∉ l ∧ l.getLast? ≠ some '\r') (hd : '$' ∉ unlines ls)
    (hs : SheetText ws alnum (language known text important) rules (unlines ls)) :
    parseStylesheet ws alnum known (Source.text ps) = .ok (flattenStylesheet rules) := by
  have e := Source.stripComments_pieces ps hps
  have hno : NoOpener (unlines ls) := by rw [← hk, ← e]; exact Source.stripComments_noOpener _
  have : Source.preprocess ws alnum (Source.text ps) = unlines ls := by
    rw [← preprocess_plain ws alnum h hno hd]
    unfold Source.preprocess
    simp only
    rw [e, hk, Source.stripComments_id _ hno]
  unfold parseStylesheet
  rw [this, sheet_written hp hf hs]
  rfl

theorem css_language : language (table env) (PropertyText env) (ImportantText env) = css env := by
  unfold language css
  congr 1
  funext n
  exact propext (table_isSome n)

/-- C130: the same with the properties of stylesheets and their values. -/
theorem parse_css (hp : PlainEnv env) {ps : List Piece} {ls : List (List Char)}
    {rules : List (List Complex × Items (Written Value))} (hps : Proper ps) (hk : ps.flatMap Piece.kept = unlines ls)
    (h : ∀ l ∈ ls, '\n' ∉ l ∧ l.getLast? ≠ some '\r') (hd : '$' ∉ unlines ls)
    (hs : SheetText env.ws env.alnum (css env) rules (unlines ls)) :
    parseStylesheet env.ws env.alnum (table env) (Source.text ps) = .ok (flattenStylesheet rules) :=
  parse_source hp.toPlain (values_faithful hp) hps hk h hd (by rw [css_language]; exact hs)

/-- C130, with variables: the values of the definitions stand in the rules where the variables are named. -/
theorem parse_variables (hp : PlainEnv env) {ls : List (List Char)} {rules : List (List Complex × Items (Written Value))}
    (h : ∀ l ∈ ls, '\n' ∉ l ∧ l.getLast? ≠ some '\r') (hc : NoOpener (unlines ls))
    (hd : ∀ l ∈ ls, ¬ HasPair '/' '*' (Source.trim env.ws l) ∧ ¬ HasPair '*' '/' (Source.trim env.ws l))
    (hs : SheetText env.ws env.alnum (css env) rules
      (unlines ((ls.filter (fun l => (Source.trim env.ws l).head? ≠ some '$')).map (Source.resolveLine env.alnum
        (Source.lookupDefs (ls.flatMap (fun l => (Source.definition env.ws (Source.trim env.ws l)).toList))))))) :
    parseStylesheet env.ws env.alnum (table env) (unlines ls) = .ok (flattenStylesheet rules) := by
  unfold parseStylesheet
  rw [Source.preprocess_lines_partial _ _ _ h hc hd, sheet_values hp hs]
  rfl

/-- A text is written in one way only. -/
theorem css_unambiguous (hp : PlainEnv env) {rules rules' : List (List Complex × Items (Written Value))} {t : List Char}
    (h : SheetText env.ws env.alnum (css env) rules t) (h' : SheetText env.ws env.alnum (css env) rules' t) :
    rules = rules' := by
  have := sheet_values hp h
  rw [sheet_values hp h'] at this
  simpa using this.symm

/-! ### A stylesheet -/

/-- ASCII, and two named colours. -/
def exEnv : Env where
  ws c := c == ' ' || c == '\n' || c == '\t' || c == '\r'
  alnum c := c.isAlphanum
  lower := List.map Char.toLower
  color := {
    rgbBody := fun _ => none
    hslBody := fun _ => none
    named := fun t => if t = "red".toList then some (RgbaColor.rgb 255 0 0) else
      if t = "blue".toList then some (RgbaColor.rgb 0 0 255) else none }

theorem exEnv_plain : PlainEnv exEnv where
  marks := by decide
  blank := by decide
  ink := by
    intro c h1 h2
    have h3 : ∀ d : Char, ¬ '!' ≤ d → c ≠ d := by rintro d hd rfl; exact hd h1
    simp [exEnv, h3 ' ' (by decide), h3 '\n' (by decide), h3 '\t' (by decide), h3 '\r' (by decide)]
  apart := by
    intro c h
    have h3 : ∀ d : Char, d.isAlphanum = false → c ≠ d := by rintro d hd rfl; simp [exEnv, hd] at h
    simp [exEnv, h3 ' ' (by decide), h3 '\n' (by decide), h3 '\t' (by decide), h3 '\r' (by decide)]
  bang := by
    intro t
    simp [exEnv]

/-- The rules of `Button, .big > Label { width: 50%; &:hover { border: solid red 50% } foo: bar; }`. -/
def exRules : List (List Complex × Items (Written Value)) :=
  [([[⟨[.type "Button"], .none⟩], [⟨[.cls "big"], .child⟩, ⟨[.type "Label"], .none⟩]],
    .decl (.known "width".toList (.scalar ⟨50, .percent⟩))
      (.rule [[⟨[.parent, .pseudo "hover"], .none⟩]]
        (.decl (.known "border".toList (.edge "solid" (some { r := 255, g := 0, b := 0, a := 1 / 2 }))) .nil)
        (.decl (.unknown "foo".toList) .nil)))]

theorem example_text : SheetText exEnv.ws exEnv.alnum (css exEnv) exRules
    "Button, .big > Label { width: 50%; &:hover { border: solid red 50% } foo: bar; }\n".toList := by
  have hname : ∀ s : String, s.toList ≠ [] → (∀ c ∈ s.toList, exEnv.alnum c = true ∨ c = '-' ∨ c = '_') →
      Name exEnv.alnum s.toList := fun s h1 h2 => ⟨h1, h2⟩
  have h50 : NumberText 50 "50".toList := by
    have := NumberText.whole (ds := "50".toList) ⟨by decide, by decide⟩
    have e : ((natural "50".toList : Nat) : Rat) = 50 := by
      have : natural "50".toList = 50 := by decide
      rw [this]; rfl
    rwa [e] at this
  have hwidth : BareText exEnv.alnum (css exEnv) (.known "width".toList (.scalar ⟨50, .percent⟩)) "width: 50%".toList :=
    BareText.known (L := css exEnv) (n := "width".toList) (v := "50%".toList) (g := []) (g' := [' '])
      (hname "width" (by decide) (by decide)) ⟨.scalar, "width", by decide, rfl⟩
      ⟨.scalar, "width", by decide, rfl, .scalar (ScalarText.number (t := "50".toList) (tu := ['%']) h50 rfl)⟩
      (by simp [Gap]) (by simp [Gap]) (Or.inl ⟨' ', rfl, by decide, by decide, by decide⟩)
  have hred : ColorText exEnv { r := 255, g := 0, b := 0, a := 1 / 2 } "red 50%".toList := by
    have := ColorText.alpha (env := exEnv) (t := "red".toList) (g := [' ']) (ds := "50".toList)
      (PlainColorText.word (c := RgbaColor.rgb 255 0 0) (by decide) (by decide) (by decide) (by decide +kernel))
      ⟨by simp [Gap], by simp⟩ ⟨by decide, by decide⟩
    have e : ({ RgbaColor.rgb 255 0 0 with a := ((natural "50".toList : Nat) : Rat) / 100 } : RgbaColor) =
        { r := 255, g := 0, b := 0, a := 1 / 2 } := by decide +kernel
    rw [e] at this
    exact this
  have hborder : BareText exEnv.alnum (css exEnv)
      (.known "border".toList (.edge "solid" (some { r := 255, g := 0, b := 0, a := 1 / 2 }))) "border: solid red 50%".toList :=
    BareText.known (L := css exEnv) (n := "border".toList) (v := "solid red 50%".toList) (g := []) (g' := [' '])
      (hname "border" (by decide) (by decide)) ⟨.edge, "border", by decide, rfl⟩
      ⟨.edge, "border", by decide, rfl, ValueText.edgeKind (t := "solid".toList) (g := [' ']) (t' := "red 50%".toList)
        ⟨hname "solid" (by decide) (by decide), "solid", by decide, by decide⟩ ⟨by simp [Gap], by simp⟩ hred⟩
      (by simp [Gap]) (by simp [Gap]) (Or.inl ⟨' ', rfl, by decide, by decide, by decide⟩)
  have hsel : ListText exEnv.ws exEnv.alnum
      [[⟨[.type "Button"], .none⟩], [⟨[.cls "big"], .child⟩, ⟨[.type "Label"], .none⟩]] "Button, .big > Label".toList :=
    ListText.cons (t := "Button".toList) (g := []) (g' := [' ']) (t' := ".big > Label".toList)
      (.one (.one (SimpleText.type (n := "Button".toList) (hname "Button" (by decide) (by decide)))))
      (by simp [Gap]) (by simp [Gap])
      (.one (ComplexText.cons (t := ".big".toList) (b := " > ".toList) (t' := "Label".toList)
        (.one (SimpleText.cls (n := "big".toList) (hname "big" (by decide) (by decide))))
        (BetweenText.child (g := [' ']) (g' := [' ']) (by simp [Gap]) (by simp [Gap]))
        (.one (.one (SimpleText.type (n := "Label".toList) (hname "Label" (by decide) (by decide)))))))
  have hhover : ListText exEnv.ws exEnv.alnum [[⟨[.parent, .pseudo "hover"], .none⟩]] "&:hover".toList :=
    .one (.one (CompoundText.cons (t := ['&']) (t' := ":hover".toList) .parent (by simp [MayFollow])
      (.one (SimpleText.pseudo (n := "hover".toList) (hname "hover" (by decide) (by decide))))))
  refine SheetText.rule (g := []) (t := "Button, .big > Label".toList) (g' := [' '])
    (tb := " width: 50%; &:hover { border: solid red 50% } foo: bar; ".toList) (t' := ['\n'])
    hsel (by simp [Gap]) (by simp [Gap]) ?_ (.nil (by simp [Gap]))
  refine ItemsText.decl (g := [' ']) (t := "width: 50%;".toList)
    (t' := " &:hover { border: solid red 50% } foo: bar; ".toList)
    (DeclText.known (t := "width: 50%".toList) (g := []) hwidth (by simp [Gap])) (by simp [Gap]) ?_
  refine ItemsText.rule (g := [' ']) (t := "&:hover".toList) (g' := [' '])
    (tb := " border: solid red 50% ".toList) (t' := " foo: bar; ".toList) hhover (by simp [Gap]) (by simp [Gap]) ?_ ?_
  · exact ItemsText.last (g := [' ']) (t := "border: solid red 50%".toList) (g' := [' ']) hborder (by simp [Gap]) (by simp [Gap])
  · refine ItemsText.decl (g := [' ']) (t := "foo: bar;".toList) (t' := [' ']) ?_ (by simp [Gap]) (.nil (by simp [Gap]))
    refine DeclText.unknown (L := css exEnv) (n := "foo".toList) (v := "bar".toList) (g := []) (g' := [' '])
      (hname "foo" (by decide) (by decide)) ?_ (by decide) (by simp [Gap]) (by simp [Gap])
      (Or.inl ⟨' ', rfl, by decide, by decide, by decide⟩)
    intro h
    have := (table_isSome (env := exEnv) "foo".toList).2 h
    exact absurd this (by decide +kernel)

/-- The hypotheses of `sheet_values` and `css_unambiguous`. -/
example : ∃ rules, SheetText exEnv.ws exEnv.alnum (css exEnv) rules
    "Button, .big > Label { width: 50%; &:hover { border: solid red 50% } foo: bar; }\n".toList := ⟨_, example_text⟩

/-- The hypotheses of `parse_css`: the same rules with a comment after them. -/
example : parseStylesheet exEnv.ws exEnv.alnum (table exEnv)
    "Button, .big > Label { width: 50%; &:hover { border: solid red 50% } foo: bar; }// buttons\n".toList =
      .ok (flattenStylesheet exRules) := by
  refine parse_css exEnv_plain
    (ps := [.code "Button, .big > Label { width: 50%; &:hover { border: solid red 50% } foo: bar; }".toList,
      .line " buttons".toList])
    (ls := ["Button, .big > Label { width: 50%; &:hover { border: solid red 50% } foo: bar; }".toList])
    ⟨?_, by decide, trivial⟩ (by decide) (by decide) (by decide) example_text
  constructor <;> rw [← Source.hasPair_of_contains2] <;> decide

/-- The hypotheses of `parse_variables`. -/
example : parseStylesheet exEnv.ws exEnv.alnum (table exEnv) (unlines ["$w: 50%;".toList,
      "Button, .big > Label { width: $w; &:hover { border: solid red $w } foo: bar; }".toList]) =
      .ok (flattenStylesheet exRules) := by
  refine parse_variables exEnv_plain (by decide) (by constructor <;> rw [← Source.hasPair_of_contains2] <;> decide) ?_ ?_
  · intro l hl
    rw [← Source.hasPair_of_contains2, ← Source.hasPair_of_contains2]
    revert l
    decide
  · have h1 : (["$w: 50%;".toList,
        "Button, .big > Label { width: $w; &:hover { border: solid red $w } foo: bar; }".toList].filter
          (fun l => (Source.trim exEnv.ws l).head? ≠ some '$')) =
        ["Button, .big > Label { width: $w; &:hover { border: solid red $w } foo: bar; }".toList] := by decide
    have h2 : (["$w: 50%;".toList,
        "Button, .big > Label { width: $w; &:hover { border: solid red $w } foo: bar; }".toList].flatMap
          (fun l => (Source.definition exEnv.ws (Source.trim exEnv.ws l)).toList)) = [("w".toList, "50%".toList)] := by
      decide
    have h3 := Source.resolveLine_parts exEnv.alnum (Source.lookupDefs [("w".toList, "50%".toList)])
      [.lit "Button, .big > Label { width: ".toList, .ref "w".toList, .lit "; &:hover { border: solid red ".toList,
        .ref "w".toList, .lit " } foo: bar; }".toList]
      ⟨by decide, by decide, by intro c hc; simp [Source.Part.text] at hc; subst hc; decide, by decide, by decide,
        by intro c hc; simp [Source.Part.text] at hc; subst hc; decide, by decide, trivial⟩
    rw [h1, h2]
    simp only [List.map_cons, List.map_nil]
    have h4 : Source.resolveLine exEnv.alnum (Source.lookupDefs [("w".toList, "50%".toList)])
        "Button, .big > Label { width: $w; &:hover { border: solid red $w } foo: bar; }".toList =
        "Button, .big > Label { width: 50%; &:hover { border: solid red 50% } foo: bar; }".toList := h3
    rw [h4]
    exact example_text

/-! ### Read otherwise than written -/

/-- A stylesheet of one line, without comments and variables. -/
theorem parse_line {V : Type} {known : List Char → Option (Q V)} {l : List Char} {x : Outcome (List (List Complex × Items (Written V)))}
    (h1 : '\n' ∉ l ∧ l.getLast? ≠ some '\r') (h2 : Source.contains2 '/' '*' (unlines [l]) = false)
    (h3 : Source.contains2 '/' '/' (unlines [l]) = false) (h4 : '$' ∉ unlines [l])
    (h : sheet exEnv.ws exEnv.alnum known (unlines [l]) = x) :
    parseStylesheet exEnv.ws exEnv.alnum known (unlines [l]) = Outcome.bind x fun r => .ok (flattenStylesheet r) := by
  unfold parseStylesheet
  rw [preprocess_plain, h]
  · intro m hm; simp at hm; subst hm; exact h1
  · constructor <;> rw [← Source.hasPair_of_contains2] <;> simp [h2, h3]
  · exact h4

/-- C129: an unknown property without a semicolon at the end of a rule swallows the next rule. -/
theorem swallowed_rule_counterexample :
    (parseStylesheet exEnv.ws exEnv.alnum (table exEnv) "Button { foo: bar } Label { color: red; }\n".toList =
      .ok [⟨[[⟨[.type "Button"], .none⟩]], [.unknown "foo".toList]⟩]) ∧
    (parseStylesheet exEnv.ws exEnv.alnum (table exEnv) "Button { width: 1 } Label { color: red; }\n".toList =
      .ok [⟨[[⟨[.type "Button"], .none⟩]], [.known "width".toList (.scalar ⟨1, .cells⟩)]⟩,
        ⟨[[⟨[.type "Label"], .none⟩]], [.known "color".toList (.color (RgbaColor.rgb 255 0 0))]⟩]) := by
  constructor
  · exact (parse_line (l := "Button { foo: bar } Label { color: red; }".toList) (by decide) (by decide) (by decide)
      (by decide) rfl).trans (by decide +kernel)
  · exact (parse_line (l := "Button { width: 1 } Label { color: red; }".toList) (by decide) (by decide) (by decide)
      (by decide) rfl).trans (by decide +kernel)

/-- C129: a mistake in a nested rule that begins with `&`, `.` or `#` loses the rule without an error; in a rule
that is not nested the same mistake is an error. -/
theorem nested_rule_counterexample :
    (parseStylesheet exEnv.ws exEnv.alnum (table exEnv) "A { width: 1; &:hover { color: rde; } }\n".toList =
      .ok [⟨[[⟨[.type "A"], .none⟩]], [.known "width".toList (.scalar ⟨1, .cells⟩), .unknown "nested-rule".toList]⟩]) ∧
    (parseStylesheet exEnv.ws exEnv.alnum (table exEnv) "A { color: rde; }\n".toList = .err) := by
  constructor
  · exact (parse_line (l := "A { width: 1; &:hover { color: rde; } }".toList) (by decide) (by decide) (by decide)
      (by decide) rfl).trans (by decide +kernel)
  · exact (parse_line (l := "A { color: rde; }".toList) (by decide) (by decide) (by decide) (by decide) rfl).trans
      (by decide +kernel)

theorem isErr {α : Type} {x : Outcome α} (h : (match x with | .err => true | _ => false) = true) : x = .err := by
  cases x <;> simp_all

/-- `broken_rule_skipped` applies to a nested rule with a misspelt colour and a rule inside. -/
example : item exEnv.alnum (table exEnv) (rule exEnv.ws exEnv.alnum (table exEnv) 9)
    "#x { color: rde; B { } } width: 1; }".toList = .ok (.decl (.unknown "nested-rule".toList), " width: 1; }".toList) :=
  broken_rule_skipped (g := []) (c := '#') (head := "x ".toList) (body := " color: rde; B { } ".toList)
    (rest := " width: 1; }".toList) 9 (by simp) (by intro c h; cases h) (by decide)
    (by
      show Braced [' ', 'c', 'o', 'l', 'o', 'r', ':', ' ', 'r', 'd', 'e', ';', ' ', 'B', ' ', '{', ' ', '}', ' ']
      repeat' first
        | exact .nil
        | refine .plain (by decide) (by decide) ?_
        | exact .block (b := [' ']) (.plain (by decide) (by decide) .nil) (.plain (by decide) (by decide) .nil))
    (isErr (by decide +kernel))

/-- C130: of three values for a margin the third is dropped. -/
theorem three_values_counterexample :
    parseStylesheet exEnv.ws exEnv.alnum (table exEnv) "A { margin: 1 2 3; }\n".toList =
      parseStylesheet exEnv.ws exEnv.alnum (table exEnv) "A { margin: 1 2; }\n".toList := by
  refine ((parse_line (l := "A { margin: 1 2 3; }".toList) (by decide) (by decide) (by decide) (by decide) rfl).trans ?_).trans
    (parse_line (l := "A { margin: 1 2; }".toList) (by decide) (by decide) (by decide) (by decide) rfl).symm
  decide +kernel

/-- C130: `!important` right after a colour, or after a text style, makes the whole stylesheet an error; after
layers it becomes a layer. -/
theorem important_counterexample :
    (parseStylesheet exEnv.ws exEnv.alnum (table exEnv) "A { color: red !important; }\n".toList =
      .ok [⟨[[⟨[.type "A"], .none⟩]], [.known "color".toList (.color (RgbaColor.rgb 255 0 0))]⟩]) ∧
    (parseStylesheet exEnv.ws exEnv.alnum (table exEnv) "A { color: red!important; }\n".toList = .err) ∧
    (parseStylesheet exEnv.ws exEnv.alnum (table exEnv) "A { text-style: bold !important; }\n".toList = .err) ∧
    (parseStylesheet exEnv.ws exEnv.alnum (table exEnv) "A { layers: a !important; }\n".toList =
      .ok [⟨[[⟨[.type "A"], .none⟩]], [.known "layers".toList (.names ["a".toList, "!important".toList])]⟩]) := by
  refine ⟨?_, ?_, ?_, ?_⟩
  · exact (parse_line (l := "A { color: red !important; }".toList) (by decide) (by decide) (by decide)
      (by decide) rfl).trans (by decide +kernel)
  · exact (parse_line (l := "A { color: red!important; }".toList) (by decide) (by decide) (by decide)
      (by decide) rfl).trans (by decide +kernel)
  · exact (parse_line (l := "A { text-style: bold !important; }".toList) (by decide) (by decide) (by decide)
      (by decide) rfl).trans (by decide +kernel)
  · exact (parse_line (l := "A { layers: a !important; }".toList) (by decide) (by decide) (by decide)
      (by decide) rfl).trans (by decide +kernel)

/-- C131: a stylesheet that makes the parser panic. -/
theorem panic_counterexample :
    parseStylesheet exEnv.ws exEnv.alnum (table exEnv) "A { color: rgb)(; }\n".toList = .panic :=
  (parse_line (l := "A { color: rgb)(; }".toList) (by decide) (by decide) (by decide) (by decide) rfl).trans
    (by decide +kernel)

end Textual.Parse
