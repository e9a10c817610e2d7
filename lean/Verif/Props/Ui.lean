import Verif.Spec.Ui
import Mathlib.Tactic.Common

/-!
# C170, C171: the macros `ui!` and `widget!`
-/

namespace Textual.Ui

/-! ### Running the generated code -/

section run

variable {σ V W : Type} (p : Program σ V W)

theorem values_eq (es : List Expr) (s : σ) : values p es s = inOrder p es s := by
  have h : ∀ (es : List Expr) (acc : List V) (s : σ),
      es.foldl (fun acc e => (acc.1 ++ [(p.value e acc.2).1], (p.value e acc.2).2)) (acc, s)
        = (acc ++ (values p es s).1, (values p es s).2) := by
    intro es
    induction es with
    | nil => intro acc s; simp [values]
    | cons e es ih => intro acc s; simp only [List.foldl_cons, ih, values]; simp
  simp only [inOrder, h]; simp

theorem calls_eq (named : List (String × Expr)) (w : W) (s : σ) :
    calls p (attrCalls named) w s = attributed p named w s := by
  induction named generalizing w s with
  | nil => rfl
  | cons a as ih =>
    obtain ⟨n, e⟩ := a
    show calls p (attrCalls as) (p.call ("with_" ++ n) (p.value e s).1 w) (p.value e s).2 = _
    rw [ih]; rfl

mutual
theorem widget_runs : ∀ (i : Item), i.isSplat = false →
    ∃ c, generateWidget i = some c ∧ ∀ s, built p i s = ([(runCode p c s).1], (runCode p c s).2)
  | .splat _, h => by simp [Item.isSplat] at h
  | .widget name pos named none, _ => by
    refine ⟨_, by rw [generateWidget], fun s => ?_⟩
    rw [built, runCode]
    simp only [values_eq, calls_eq]
  | .widget name pos named (some children), _ => by
    obtain ⟨v, hv, hr⟩ := vec_runs children
    have hg : generateWidget (.widget name pos named (some children)) =
        some (.make name pos (some v) (attrCalls named)) := by
      rw [generateWidget, hv]
      cases pos <;> cases named <;> simp [attrCalls]
    refine ⟨_, hg, fun s => ?_⟩
    rw [built, runCode]
    simp only [values_eq, calls_eq, hr]
theorem all_runs : ∀ (is : List Item), is.any Item.isSplat = false →
    ∃ cs, generateAll is = some cs ∧ ∀ s, runAll p cs s = builtAll p is s
  | [], _ => ⟨[], by rw [generateAll], fun s => by rw [runAll, builtAll]⟩
  | i :: is, h => by
    rw [List.any_cons, Bool.or_eq_false_iff] at h
    obtain ⟨c, hc, hr⟩ := widget_runs i h.1
    obtain ⟨cs, hcs, hrs⟩ := all_runs is h.2
    refine ⟨c :: cs, by rw [generateAll, hc, hcs]; rfl, fun s => ?_⟩
    rw [runAll, builtAll]
    simp only [hr, hrs]
    rfl
theorem stmts_run : ∀ (is : List Item),
    ∃ ss, generateStmts is = some ss ∧
      ∀ acc s, runStmts p ss acc s = (acc ++ (builtAll p is s).1, (builtAll p is s).2)
  | [] => ⟨[], by rw [generateStmts], fun acc s => by rw [runStmts, builtAll]; simp⟩
  | .splat e :: is => by
    obtain ⟨ss, hss, hrs⟩ := stmts_run is
    refine ⟨.extend e :: ss, by rw [generateStmts, hss]; rfl, fun acc s => ?_⟩
    rw [runStmts, builtAll, built]
    simp only [hrs, List.append_assoc]
  | .widget name pos named children :: is => by
    obtain ⟨c, hc, hr⟩ := widget_runs (.widget name pos named children) rfl
    obtain ⟨ss, hss, hrs⟩ := stmts_run is
    have hg : generateStmts (.widget name pos named children :: is) = some (.push c :: ss) := by
      rw [generateStmts, hc, hss]
      · rfl
      · intro e h; cases h
    refine ⟨_, hg, fun acc s => ?_⟩
    rw [runStmts, builtAll]
    simp only [hr, hrs, List.append_assoc]
theorem vec_runs (is : List Item) :
    ∃ v, generateVec is = some v ∧ ∀ s, runVec p v s = builtAll p is s := by
  rw [generateVec]
  cases h : is.any Item.isSplat with
  | false =>
    obtain ⟨cs, hcs, hrs⟩ := all_runs is h
    exact ⟨.literal cs, by simp [hcs], fun s => by rw [runVec, hrs]⟩
  | true =>
    obtain ⟨ss, hss, hrs⟩ := stmts_run is
    exact ⟨.block ss, by simp [hss], fun s => by rw [runVec, hrs]; simp⟩
end

end run

/-! ### Reading -/

theorem dropComma_spec (ts : List Tok) : ∃ c, (c = [] ∨ c = [Tok.comma]) ∧ ts = c ++ dropComma ts := by
  unfold dropComma
  split
  · exact ⟨[.comma], .inr rfl, rfl⟩
  · exact ⟨[], .inl rfl, rfl⟩

theorem args_sound {read : Reader} {isExpr : Expr → Prop} (h : Takes read isExpr) :
    ∀ (fuel : Nat) (seen : Bool) (ts : List Tok) (pos : List Expr) (named : List (String × Expr)),
      parseArgs read fuel seen ts = some (pos, named) →
        ArgsText isExpr pos named ts ∧ (seen = true → pos = []) := by
  intro fuel
  induction fuel with
  | zero =>
    intro seen ts pos named hp
    cases ts with
    | nil => simp [parseArgs] at hp; obtain ⟨rfl, rfl⟩ := hp; exact ⟨.nil, fun _ => rfl⟩
    | cons t ts => simp [parseArgs] at hp
  | succ fuel ih =>
    intro seen ts pos named hp
    cases ts with
    | nil => simp [parseArgs] at hp; obtain ⟨rfl, rfl⟩ := hp; exact ⟨.nil, fun _ => rfl⟩
    | cons t ts =>
      unfold parseArgs at hp
      · split at hp
        · rename_i name us heq
          simp only [Option.bind_eq_bind, Option.bind_eq_some_iff, Prod.exists] at hp
          obtain ⟨e, rest, hr, pos', named', hrec, heq'⟩ := hp
          obtain ⟨rfl, he⟩ := h _ _ _ hr
          obtain ⟨c, hc, hrest⟩ := dropComma_spec rest
          obtain ⟨ha, hpos⟩ := ih _ _ _ _ hrec
          simp only [Option.pure_def, Option.some.injEq, Prod.mk.injEq] at heq'
          obtain ⟨rfl, rfl⟩ := heq'
          obtain rfl := hpos rfl
          refine ⟨?_, fun _ => rfl⟩
          rw [heq, hrest, ← List.append_assoc]
          exact .named he hc ha
        · cases seen with
          | true => simp at hp
          | false =>
            simp only [Bool.false_eq_true, if_false, Option.bind_eq_bind, Option.bind_eq_some_iff, Prod.exists] at hp
            obtain ⟨e, rest, hr, pos', named', hrec, heq'⟩ := hp
            obtain ⟨hts, he⟩ := h _ _ _ hr
            obtain ⟨c, hc, hrest⟩ := dropComma_spec rest
            obtain ⟨ha, -⟩ := ih _ _ _ _ hrec
            simp only [Option.pure_def, Option.some.injEq, Prod.mk.injEq] at heq'
            obtain ⟨rfl, rfl⟩ := heq'
            refine ⟨?_, fun h => by cases h⟩
            rw [hts, hrest, ← List.append_assoc]
            exact .pos he hc ha

theorem sound {read : Reader} {isExpr : Expr → Prop} (h : Takes read isExpr) : ∀ (fuel : Nat),
    (∀ ts is, parseItems read fuel ts = some is → ItemsText isExpr is ts) ∧
    (∀ ts i rest, parseItem read fuel ts = some (i, rest) → ∃ a, ts = a ++ rest ∧ ItemText isExpr i a) ∧
    (∀ ts i rest, parseWidget read fuel ts = some (i, rest) →
      ∃ a, ts = a ++ rest ∧ ItemText isExpr i a ∧ i.isSplat = false) := by
  intro fuel
  induction fuel with
  | zero =>
    refine ⟨fun ts is hp => ?_, fun ts i rest hp => ?_, fun ts i rest hp => ?_⟩
    · cases ts with
      | nil => simp [parseItems] at hp; subst hp; exact .nil
      | cons t ts => simp [parseItems] at hp
    · simp [parseItem] at hp
    · simp [parseWidget] at hp
  | succ fuel ih =>
    obtain ⟨ih1, ih2, ih3⟩ := ih
    refine ⟨fun ts is hp => ?_, fun ts i rest hp => ?_, fun ts i rest hp => ?_⟩
    · cases ts with
      | nil => simp [parseItems] at hp; subst hp; exact .nil
      | cons t ts =>
        rw [parseItems] at hp
        simp only [Option.bind_eq_bind, Option.bind_eq_some_iff, Prod.exists] at hp
        obtain ⟨i, rest, hi, is', his, heq⟩ := hp
        obtain ⟨a, ha, hia⟩ := ih2 _ _ _ hi
        simp only [Option.pure_def, Option.some.injEq] at heq
        subst heq
        rw [ha]
        exact .cons hia (ih1 _ _ his)
    · unfold parseItem at hp
      split at hp
      · simp only [Option.bind_eq_bind, Option.bind_eq_some_iff, Prod.exists] at hp
        obtain ⟨e, rest', hr, heq⟩ := hp
        obtain ⟨rfl, he⟩ := h _ _ _ hr
        simp only [Option.pure_def, Option.some.injEq, Prod.mk.injEq] at heq
        obtain ⟨rfl, rfl⟩ := heq
        exact ⟨_, rfl, .splat he⟩
      · obtain ⟨a, ha, hia, -⟩ := ih3 _ _ _ hp
        exact ⟨a, ha, hia⟩
    · unfold parseWidget at hp
      split at hp
      · rename_i name us
        simp only [Option.bind_eq_bind, Option.bind_eq_some_iff, Prod.exists] at hp
        obtain ⟨pos, named, us', hhead, hkids⟩ := hp
        have hh : ∃ a, us = a ++ us' ∧ HeadText isExpr pos named a := by
          unfold parseHead at hhead
          split at hhead
          · simp only [Option.bind_eq_bind, Option.bind_eq_some_iff, Prod.exists] at hhead
            obtain ⟨pos', named', hargs, heq⟩ := hhead
            simp only [Option.pure_def, Option.some.injEq, Prod.mk.injEq] at heq
            obtain ⟨rfl, rfl, rfl⟩ := heq
            exact ⟨[.paren _], rfl, .args (args_sound h _ _ _ _ _ hargs).1⟩
          · simp only [Option.some.injEq, Prod.mk.injEq] at hhead
            obtain ⟨rfl, rfl, rfl⟩ := hhead
            exact ⟨[], rfl, .bare⟩
        obtain ⟨a, rfl, hha⟩ := hh
        split at hkids
        · simp only [Option.bind_eq_bind, Option.bind_eq_some_iff] at hkids
          obtain ⟨cs, hcs, heq⟩ := hkids
          simp only [Option.pure_def, Option.some.injEq, Prod.mk.injEq] at heq
          obtain ⟨rfl, rfl⟩ := heq
          exact ⟨_, by simp, .group hha (ih1 _ _ hcs), rfl⟩
        · simp only [Option.pure_def, Option.some.injEq, Prod.mk.injEq] at hkids
          obtain ⟨rfl, rfl⟩ := hkids
          exact ⟨_, by simp, .leaf hha, rfl⟩
      · simp at hp

/-- **C170.** Whatever `ui!` accepts, every token of the text belongs to the description it was read as, and running the
generated code makes exactly the widgets of that description, in the order written, evaluating every expression once
and in order. -/
theorem ui_sound {read : Reader} {isExpr : Expr → Prop} (h : Takes read isExpr) {ts : List Tok} {code : VecCode}
    (hc : ui read ts = some code) :
    ∃ is, is ≠ [] ∧ ItemsText isExpr is ts ∧
      ∀ {σ V W : Type} (p : Program σ V W) (s : σ), runVec p code s = builtAll p is s := by
  unfold ui parseRoot at hc
  simp only [Option.bind_eq_bind, Option.bind_eq_some_iff] at hc
  obtain ⟨is, ⟨is', his, hne⟩, hg⟩ := hc
  split at hne
  · simp at hne
  · rename_i hemp
    simp only [Option.pure_def, Option.some.injEq] at hne
    subst hne
    refine ⟨is', by simpa using hemp, (sound h _).1 _ _ his, fun p s => ?_⟩
    obtain ⟨v, hv, hr⟩ := vec_runs p is'
    rw [hv] at hg
    cases hg
    exact hr s

/-- **C170.** The same for `widget!`, which makes one widget. -/
theorem widget_sound {read : Reader} {isExpr : Expr → Prop} (h : Takes read isExpr) {ts : List Tok} {code : Code}
    (hc : widget read ts = some code) :
    ∃ i, ItemText isExpr i ts ∧
      ∀ {σ V W : Type} (p : Program σ V W) (s : σ), built p i s = ([(runCode p code s).1], (runCode p code s).2) := by
  unfold widget at hc
  simp only [Option.bind_eq_bind, Option.bind_eq_some_iff, Prod.exists] at hc
  obtain ⟨i, rest, hi, hg⟩ := hc
  split at hg
  · rename_i hemp
    obtain ⟨a, ha, hia, hs⟩ := (sound h _).2.2 _ _ _ hi
    obtain rfl : rest = [] := by simpa using hemp
    rw [List.append_nil] at ha
    subst ha
    refine ⟨i, hia, fun p s => ?_⟩
    obtain ⟨c, hc, hr⟩ := widget_runs p i hs
    rw [hc] at hg
    cases hg
    exact hr s
  · simp at hg

/-! ### Descriptions that are written in the usual way -/

/-- What follows the first of several arguments. -/
private def tailOf : List (List Tok) → List Tok
  | [] => []
  | as => .comma :: commas as

private theorem commas_cons (a : List Tok) (as : List (List Tok)) : commas (a :: as) = a ++ tailOf as := by
  cases as <;> simp [commas, tailOf]

private theorem drop_tail (as : List (List Tok)) : dropComma (tailOf as) = commas as := by
  cases as <;> simp [dropComma, tailOf, commas]

private theorem read_tail {read : Reader} {plain : Expr → Prop} (h : Stops read plain) {e : Expr} (he : plain e)
    (as : List (List Tok)) : read (e ++ tailOf as) = some (e, tailOf as) := by
  cases as with
  | nil => simpa [tailOf] using h.atEnd e he
  | cons a as => exact h.atComma e _ he

private theorem commas_length (as : List (List Tok)) (h : ∀ a ∈ as, a ≠ []) : as.length ≤ (commas as).length := by
  induction as with
  | nil => simp
  | cons a as ih =>
    have ha : 0 < a.length := List.length_pos_iff.2 (h a (by simp))
    have := ih fun b hb => h b (by simp [hb])
    rw [commas_cons]
    cases as with
    | nil => simp [tailOf]; omega
    | cons b bs => simp [tailOf] at this ⊢; omega

private abbrev namedText (named : List (String × Expr)) : List (List Tok) :=
  named.map fun a => .ident a.1 :: .colon :: a.2

private theorem named_complete {read : Reader} {plain : Expr → Prop} (h : Stops read plain)
    (named : List (String × Expr)) (hp : ∀ a ∈ named, plain a.2) (fuel : Nat) (hf : named.length ≤ fuel) (seen : Bool) :
    parseArgs read fuel seen (commas (namedText named)) = some ([], named) := by
  induction named generalizing fuel seen with
  | nil => cases fuel <;> simp [commas, parseArgs]
  | cons a as ih =>
    obtain ⟨n, e⟩ := a
    obtain ⟨fuel, rfl⟩ : ∃ k, fuel = k + 1 := ⟨fuel - 1, by simp at hf; omega⟩
    rw [namedText, List.map_cons, commas_cons]
    show parseArgs read (fuel + 1) seen (.ident n :: .colon :: (e ++ tailOf (namedText as))) = _
    unfold parseArgs
    simp only [read_tail h (hp (n, e) (by simp)), Option.bind_eq_bind, Option.bind_some, drop_tail,
      ih (fun a ha => hp a (by simp [ha])) fuel (by simp at hf; omega) true, Option.pure_def]

private theorem args_pos (read : Reader) (fuel : Nat) (ts : List Tok) (hne : ts ≠ [])
    (hnc : ∀ n r, ts ≠ .ident n :: .colon :: r) :
    parseArgs read (fuel + 1) false ts = (read ts).bind fun r =>
      (parseArgs read fuel false (dropComma r.2)).bind fun q => some (r.1 :: q.1, q.2) := by
  rw [parseArgs]
  · simp
  · exact hne
  · intro n r h; exact hnc n r h

private theorem args_complete {read : Reader} {plain : Expr → Prop} (h : Stops read plain) (pos : List Expr)
    (named : List (String × Expr)) (hpos : ∀ e ∈ pos, plain e) (hp : ∀ a ∈ named, plain a.2) (fuel : Nat)
    (hf : pos.length + named.length ≤ fuel) :
    parseArgs read fuel false (commas (pos ++ namedText named)) = some (pos, named) := by
  induction pos generalizing fuel with
  | nil => exact named_complete h named hp fuel (by simpa using hf) false
  | cons e es ih =>
    obtain ⟨fuel, rfl⟩ : ∃ k, fuel = k + 1 := ⟨fuel - 1, by simp at hf; omega⟩
    have he := hpos e (by simp)
    have hr := ih (fun a ha => hpos a (by simp [ha])) fuel (by simp at hf; omega)
    rw [List.cons_append, commas_cons]
    have hread := read_tail h he (es ++ namedText named)
    have hdrop := drop_tail (es ++ namedText named)
    have hne := h.notEmpty e he
    have hnc : ∀ n r, e ++ tailOf (es ++ namedText named) ≠ .ident n :: .colon :: r := by
      intro n r heq
      have hn := fun r => h.notNamed e n r he
      match e, hne, heq with
      | [a], _, heq =>
        cases hb : es ++ namedText named <;> rw [hb] at heq <;> simp [tailOf] at heq
      | a :: b :: e, _, heq =>
        simp only [List.cons_append, List.cons.injEq] at heq
        exact hn e (by rw [heq.1, heq.2.1])
    rw [args_pos read fuel _ (by simp [hne]) hnc, hread]
    simp only [Option.bind_some, hdrop, hr]

mutual
/-- Steps needed for an item, its own not counted. -/
private def inside : Item → Nat
  | .splat _ => 0
  | .widget _ _ _ none => 0
  | .widget _ _ _ (some cs) => need cs
/-- Steps needed for items. -/
private def need : List Item → Nat
  | [] => 0
  | i :: is => 3 + inside i + need is
end

private theorem count_append (a b : List Tok) : Tok.count.go (a ++ b) = Tok.count.go a + Tok.count.go b := by
  induction a with
  | nil => simp [Tok.count.go]
  | cons t ts ih => simp [Tok.count.go, ih]; omega

mutual
private theorem inside_le : ∀ i : Item, inside i + 3 ≤ 3 * Tok.count.go (written i)
  | .splat e => by rw [inside, written]; simp [Tok.count.go, Tok.count]; omega
  | .widget _ _ _ none => by rw [inside, written]; simp [Tok.count.go, Tok.count]; omega
  | .widget _ _ _ (some cs) => by
    have := need_le cs
    rw [inside, written]
    simp only [Tok.count.go, Tok.count, count_append]
    omega
private theorem need_le : ∀ is : List Item, need is ≤ 3 * Tok.count.go (writtenAll is)
  | [] => by rw [need]; omega
  | i :: is => by
    have h1 := inside_le i
    have h2 := need_le is
    rw [need, writtenAll, count_append]
    omega
end

/-- The tokens after an item begin the next one, or there are none. -/
private def Follow (rest : List Tok) : Prop := rest = [] ∨ (∃ n r, rest = .ident n :: r) ∨ ∃ r, rest = .dotdot :: r

private theorem follow_all (is : List Item) : Follow (writtenAll is) := by
  cases is with
  | nil => left; rw [writtenAll]
  | cons i is =>
    rw [writtenAll]
    match i with
    | .splat e => right; right; exact ⟨_, by rw [written]; rfl⟩
    | .widget n p a none => right; left; exact ⟨_, _, by rw [written]; rfl⟩
    | .widget n p a (some cs) => right; left; exact ⟨_, _, by rw [written]; rfl⟩

private theorem head_complete {read : Reader} {plain : Expr → Prop} (h : Stops read plain) (pos : List Expr)
    (named : List (String × Expr)) (hpos : ∀ e ∈ pos, plain e) (hp : ∀ a ∈ named, plain a.2) (rest : List Tok)
    (hr : ∀ c r, rest ≠ .paren c :: r) : parseHead read (headOf pos named ++ rest) = some (pos, named, rest) := by
  unfold headOf
  split
  · rename_i hemp
    obtain ⟨h1, h2⟩ := hemp
    obtain rfl : pos = [] := by simpa using h1
    obtain rfl : named = [] := by simpa using h2
    unfold parseHead
    split
    · rename_i c r heq; exact absurd heq (hr c r)
    · rfl
  · show parseHead read (.paren _ :: rest) = _
    unfold parseHead
    have hlen : pos.length + named.length ≤ (commas (pos ++ namedText named)).length := by
      have := commas_length (pos ++ namedText named) (by
        intro a ha
        rcases List.mem_append.1 ha with ha | ha
        · exact h.notEmpty a (hpos a ha)
        · obtain ⟨b, -, rfl⟩ := List.mem_map.1 ha; simp)
      simpa using this
    have := args_complete h pos named hpos hp _ hlen
    simp only [namedText] at this
    simp only [this, Option.bind_eq_bind, Option.bind_some, Option.pure_def]

mutual
private theorem item_complete {read : Reader} {plain : Expr → Prop} (h : Stops read plain) : ∀ (i : Item) (rest : List Tok)
    (fuel : Nat), inside i + 2 ≤ fuel → Plain plain i → Follow rest → (i.isSplat = true → ∀ r, rest ≠ .dotdot :: r) →
      parseItem read fuel (written i ++ rest) = some (i, rest)
  | .splat e, rest, fuel + 1, _, hp, hf, hs => by
    rw [Plain] at hp
    rw [written]
    show parseItem read (fuel + 1) (.dotdot :: (e ++ rest)) = _
    unfold parseItem
    have hr : read (e ++ rest) = some (e, rest) := by
      rcases hf with rfl | ⟨n, r, rfl⟩ | ⟨r, rfl⟩
      · simpa using h.atEnd e hp
      · exact h.atIdent e n r hp
      · exact absurd rfl (hs rfl r)
    simp only [hr, Option.bind_eq_bind, Option.bind_some, Option.pure_def]
  | .widget name pos named none, rest, fuel + 2, _, hp, hf, _ => by
    rw [Plain] at hp
    rw [written]
    show parseItem read (fuel + 2) (.ident name :: (headOf pos named ++ rest)) = _
    unfold parseItem parseWidget
    have hh := head_complete h pos named hp.1 hp.2 rest (by
      rcases hf with rfl | ⟨n, r, rfl⟩ | ⟨r, rfl⟩ <;> simp)
    simp only [hh, Option.bind_eq_bind, Option.bind_some, Option.pure_def]
    rcases hf with rfl | ⟨n, r, rfl⟩ | ⟨r, rfl⟩ <;> rfl
  | .widget name pos named (some cs), rest, fuel + 2, hf', hp, _, _ => by
    rw [Plain] at hp
    rw [inside] at hf'
    rw [written]
    have hk := items_complete h cs fuel (by omega) hp.2.2.2 hp.2.2.1
    rw [List.cons_append, List.append_assoc]
    unfold parseItem parseWidget
    have hh := head_complete h pos named hp.1 hp.2.1 ([.brace (writtenAll cs)] ++ rest) (by simp)
    simp only [hh, Option.bind_eq_bind, Option.bind_some, Option.pure_def]
    simp [hk]
private theorem items_complete {read : Reader} {plain : Expr → Prop} (h : Stops read plain) : ∀ (is : List Item)
    (fuel : Nat), need is ≤ fuel → PlainAll plain is → apart is → parseItems read fuel (writtenAll is) = some is
  | [], fuel, _, _, _ => by rw [writtenAll]; cases fuel <;> simp [parseItems]
  | i :: is, fuel, hf, hp, ha => by
    rw [need] at hf
    rw [PlainAll] at hp
    obtain ⟨fuel, rfl⟩ : ∃ k, fuel = k + 1 := ⟨fuel - 1, by omega⟩
    have hi := item_complete h i (writtenAll is) fuel (by omega) hp.1 (follow_all is) (by
      intro hs r heq
      match i, is, hs, ha, heq with
      | .splat _, .splat _ :: _, _, ha, _ => simp [apart] at ha
      | .splat _, [], _, _, heq => rw [writtenAll] at heq; simp at heq
      | .splat _, .widget _ _ _ none :: _, _, _, heq => rw [writtenAll, written] at heq; simp at heq
      | .splat _, .widget _ _ _ (some _) :: _, _, _, heq => rw [writtenAll, written] at heq; simp at heq)
    have hrec := items_complete h is fuel (by omega) hp.2 (by
      unfold apart at ha
      split at ha
      · exact ha.elim
      · rename_i heq; cases heq; exact ha
      · rename_i heq; cases heq)
    rw [writtenAll]
    have hne : ∃ t ts, written i ++ writtenAll is = t :: ts := by
      match i with
      | .splat e => exact ⟨_, _, by rw [written]; rfl⟩
      | .widget _ _ _ none => exact ⟨_, _, by rw [written]; rfl⟩
      | .widget _ _ _ (some cs) => exact ⟨_, _, by rw [written]; rfl⟩
    obtain ⟨t, ts, hts⟩ := hne
    rw [hts] at hi ⊢
    rw [parseItems]
    simp only [hi, hrec, Option.bind_eq_bind, Option.bind_some, Option.pure_def]
end

/-- **C171**, for descriptions without two splats in a row: `ui!` accepts everything that is written in the usual way,
and makes of it the widgets that were written. -/
theorem ui_complete_partial {read : Reader} {plain : Expr → Prop} (h : Stops read plain) {is : List Item}
    (hp : PlainAll plain is) (ha : apart is) (hne : is ≠ []) :
    ∃ code, ui read (writtenAll is) = some code ∧
      ∀ {σ V W : Type} (p : Program σ V W) (s : σ), runVec p code s = builtAll p is s := by
  have hparse := items_complete h is (steps (writtenAll is)) (by have := need_le is; unfold steps; omega) hp ha
  obtain ⟨code, hg, -⟩ := vec_runs (⟨fun _ s => ((), s), fun _ _ _ => (), fun _ _ _ => (), fun _ => []⟩ :
    Program Unit Unit Unit) is
  refine ⟨code, ?_, fun p s => ?_⟩
  · unfold ui parseRoot
    simp only [hparse, Option.bind_eq_bind, Option.bind_some]
    cases is with
    | nil => exact absurd rfl hne
    | cons i is => simpa using hg
  · obtain ⟨v, hv, hr⟩ := vec_runs p is
    rw [hg] at hv
    cases hv
    exact hr s

/-- What is missing in `ui_complete_partial`: two splats in a row are read as one splat of a range, by every parser of
expressions that knows ranges. -/
theorem splats_counterexample {read : Reader} {a b : Expr}
    (hr : read (a ++ .dotdot :: b) = some (a ++ .dotdot :: b, [])) :
    ui read (writtenAll [.splat a, .splat b]) = some (.block [.extend (a ++ .dotdot :: b)]) := by
  have hw : writtenAll [.splat a, .splat b] = .dotdot :: (a ++ .dotdot :: b) := by simp [writtenAll, written]
  have hs : steps (writtenAll [.splat a, .splat b]) = (3 * (Tok.count.go (a ++ .dotdot :: b)) + 4) + 2 := by
    rw [hw]; simp only [steps, Tok.count.go, Tok.count]; omega
  unfold ui parseRoot
  rw [hs, hw, parseItems, parseItem]
  simp only [hr, Option.bind_eq_bind, Option.bind_some, Option.pure_def]
  simp [parseItems, generateVec, Item.isSplat, generateStmts]

/-! ### Examples -/

/-- A parser of names, literals and ranges of them. -/
def rangeReader : Reader
  | .ident a :: .dotdot :: .ident b :: ts => some ([.ident a, .dotdot, .ident b], ts)
  | .ident a :: ts => some ([.ident a], ts)
  | .other a :: ts => some ([.other a], ts)
  | _ => none

/-- It takes the tokens from the front (the hypothesis of `ui_sound` and `widget_sound`). -/
theorem rangeReader_takes : Takes rangeReader (· ≠ []) := by
  intro ts e rest h
  unfold rangeReader at h
  split at h <;> simp at h <;> obtain ⟨rfl, rfl⟩ := h <;> simp

/-- Names and literals end where they should (the hypothesis of `ui_complete_partial`). -/
theorem rangeReader_stops : Stops rangeReader fun e => (∃ n, e = [.ident n]) ∨ ∃ n, e = [.other n] where
  atEnd := by rintro e (⟨n, rfl⟩ | ⟨n, rfl⟩) <;> rfl
  atComma := by rintro e rest (⟨n, rfl⟩ | ⟨n, rfl⟩) <;> rfl
  atIdent := by rintro e m rest (⟨n, rfl⟩ | ⟨n, rfl⟩) <;> rfl
  notNamed := by rintro e m rest (⟨n, rfl⟩ | ⟨n, rfl⟩) <;> simp
  notEmpty := by rintro e (⟨n, rfl⟩ | ⟨n, rfl⟩) <;> simp

/-- `Horizontal(id: "row") { Static("Header") ..items Label(text, classes: "x") }`. -/
def sample : List Item := [.widget "Horizontal" [] [("id", [.other "\"row\""])] (some
  [.widget "Static" [[.other "\"Header\""]] [] none, .splat [.ident "items"],
   .widget "Label" [[.ident "text"]] [("classes", [.other "\"x\""])] none])]

example : PlainAll (fun e => (∃ n, e = [.ident n]) ∨ ∃ n, e = [.other n]) sample ∧ apart sample ∧ sample ≠ [] := by
  refine ⟨?_, ?_, by simp [sample]⟩
  · simp [sample, PlainAll, Plain, apart]
  · simp [sample, apart]

/-- A program in which a widget is a list of its parts, a value is the number of expressions evaluated before, and
spreading gives two widgets. -/
def sampleProgram : Program Nat Nat (List (String × Nat)) where
  value _ n := (n, n + 1)
  make name vs ws := (name, 0) :: vs.map (fun v => ("arg", v)) ++ (ws.getD []).flatten
  call m v w := w ++ [(m, v)]
  spread v := [[("item", v)], [("item", v)]]

/-- The description is accepted and runs to what is written. -/
example : ∃ code, ui rangeReader (writtenAll sample) = some code ∧
    runVec sampleProgram code 0 =
      ([[("Horizontal", 0), ("Static", 0), ("arg", 0), ("item", 1), ("item", 1), ("Label", 0), ("arg", 2),
        ("with_classes", 3), ("with_id", 4)]], 5) := by
  obtain ⟨code, hc, hr⟩ := ui_complete_partial rangeReader_stops (is := sample)
    (by simp [sample, PlainAll, Plain, apart]) (by simp [sample, apart]) (by simp [sample])
  refine ⟨code, hc, ?_⟩
  rw [hr]
  simp [sample, builtAll, built, inOrder, attributed, sampleProgram]

/-- `widget! { Static("a") }` is accepted. -/
example : widget rangeReader [.ident "Static", .paren [.other "a"]] = some (.make "Static" [[.other "a"]] none []) := by
  simp [widget, steps, Tok.count.go, Tok.count, parseWidget, parseHead, parseArgs, rangeReader, dropComma,
    generateWidget, attrCalls]

/-- `..first ..second`: one value is spread instead of two. -/
example : rangeReader ([Tok.ident "first"] ++ .dotdot :: [.ident "second"]) =
      some ([Tok.ident "first"] ++ .dotdot :: [.ident "second"], []) ∧
    (runVec sampleProgram (.block [.extend [.ident "first", .dotdot, .ident "second"]]) 0).1.length = 2 ∧
    (builtAll sampleProgram [.splat [.ident "first"], .splat [.ident "second"]] 0).1.length = 4 := by
  refine ⟨rfl, ?_, ?_⟩
  · simp [runVec, runStmts, sampleProgram]
  · simp [builtAll, built, sampleProgram]

end Textual.Ui
