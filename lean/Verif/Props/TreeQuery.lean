import Verif.Props.Tree

/-! Queries, bubbling and walks over the widget tree: C72, C73, C74. -/

namespace Textual.Tree

open W

/-! ### C72: queries -/

namespace W

theorem applyFirst_eq (test : Attrs → Bool) (f : Attrs → Attrs) (w : W) :
    w.applyFirst test f = if test w.attrs then (modifyAt f w [], true)
      else match w with
        | node k a cs => (match k with
          | .leaf => (node k a cs, false)
          | .press => (node k a cs, false)
          | _ => ((node k a (applyFirstIn test f cs).1), (applyFirstIn test f cs).2)) := by
  cases w with
  | node k a cs => cases k <;> rfl

theorem matchingPaths_eq (test : Attrs → Bool) (w : W) :
    w.matchingPaths test = (if test w.attrs then [[]] else []) ++ matchingPathsIn test 0 w.exposed := by
  cases w with
  | node k a cs => cases k <;> rfl

theorem countAll_eq (test : Attrs → Bool) (w : W) :
    w.countAll test = (if test w.attrs then 1 else 0) + countAllIn test w.exposed := by
  cases w with
  | node k a cs => cases k <;> rfl

theorem filter_paths_eq (test : Attrs → Bool) (w : W) :
    w.paths.filter (w.has test) = (if test w.attrs then [[]] else []) ++
      filterIn (fun c p => c.has test p) 0 w.exposed := by
  rw [paths_eq, List.filter_cons, filterIn_eq (fun c p => c.has test p)]
  · simp only [has, at?, Option.any_some]
    split <;> simp_all
  · intro j c p hj
    rw [Nat.zero_add, has_cons, hj]
    rfl

/-- C72: the paths of the matches are the matching widgets in document order. -/
theorem matching_spec (test : Attrs → Bool) (w : W) : w.matchingPaths test = w.paths.filter (w.has test) := by
  induction w using induct' with
  | h w ih =>
    rw [matchingPaths_eq, filter_paths_eq]
    congr 1
    have : ∀ (cs : List W) (i0 : Nat), (∀ c ∈ cs, c ∈ w.exposed) →
        matchingPathsIn test i0 cs = filterIn (fun c p => c.has test p) i0 cs := by
      intro cs
      induction cs with
      | nil => intro i0 _; rfl
      | cons c cs ih2 =>
        intro i0 hsub
        rw [matchingPathsIn, filterIn, ih c (hsub c (by simp)), ih2 _ (fun d hd => hsub d (by simp [hd]))]
    exact this _ _ (fun _ h => h)

example : demo.matchingPaths (·.typeName = "Button") = [[0], [2]] := by decide +kernel

/-- C72: `count` is the number of matching widgets. -/
theorem count_spec (test : Attrs → Bool) (w : W) : w.countAll test = (w.paths.filter (w.has test)).length := by
  rw [← matching_spec]
  induction w using induct' with
  | h w ih =>
    rw [countAll_eq, matchingPaths_eq, List.length_append]
    have : ∀ (cs : List W) (i0 : Nat), (∀ c ∈ cs, c ∈ w.exposed) →
        countAllIn test cs = (matchingPathsIn test i0 cs).length := by
      intro cs
      induction cs with
      | nil => intro i0 _; rfl
      | cons c cs ih2 =>
        intro i0 hsub
        rw [countAllIn, matchingPathsIn, ih c (hsub c (by simp)), ih2 (i0 + 1) (fun d hd => hsub d (by simp [hd])),
          List.length_append, List.length_map]
    rw [this _ 0 (fun _ h => h)]
    split <;> rfl

example : demo.countAll (·.focusable) = 3 := by decide +kernel

theorem attrsAt_nil (w : W) : w.attrsAt [] = some w.attrs := rfl

theorem attrsAt_cons (w : W) (i : Nat) (p : List Nat) :
    w.attrsAt (i :: p) = w.exposed[i]?.bind (fun c => c.attrsAt p) := by
  unfold attrsAt
  rw [at?_cons]
  cases w.exposed[i]? <;> rfl

/-- Changing the widget at a path changes that widget only. -/
theorem modifyAt_spec (f : Attrs → Attrs) (w : W) (p q : List Nat) :
    (modifyAt f w p).attrsAt q = if q = p then (w.attrsAt q).map f else w.attrsAt q := by
  induction p generalizing w q with
  | nil =>
    cases w with
    | node k a cs =>
      cases q with
      | nil => rfl
      | cons j q =>
        rw [if_neg (by simp), attrsAt_cons, attrsAt_cons]
        have : (modifyAt f (node k a cs) []).exposed = (node k a cs).exposed := by cases k <;> rfl
        rw [this]
  | cons i p ih =>
    cases q with
    | nil => rw [if_neg (by simp), attrsAt_nil, attrsAt_nil, modifyAt_attrs_cons]
    | cons j q =>
      rw [attrsAt_cons, attrsAt_cons, modifyAt_exposed, List.getElem?_modify]
      cases hj : w.exposed[j]? with
      | none => simp
      | some c =>
        by_cases hij : i = j
        · subst hij
          simp only [if_true, Option.map_some, Option.bind_some]
          show (modifyAt f c p).attrsAt q = _
          rw [ih c q]
          by_cases hq : q = p
          · rw [if_pos hq, if_pos (by rw [hq])]
          · rw [if_neg hq, if_neg (by simpa using hq)]
        · have : ¬ j = i := fun e => hij e.symm
          simp [hij, this]

/-- What `applyFirst` does, by the first match. -/
theorem applyFirst_modify (test : Attrs → Bool) (f : Attrs → Attrs) (w : W) :
    w.applyFirst test f = match (w.matchingPaths test).head? with
      | some p => (modifyAt f w p, true)
      | none => (w, false) := by
  induction w using induct' with
  | h w ih =>
    have key : ∀ (cs : List W) (i0 : Nat), (∀ c ∈ cs, c ∈ w.exposed) →
        match (matchingPathsIn test i0 cs).head? with
        | some p => ∃ i q, p = (i0 + i) :: q ∧ applyFirstIn test f cs = (cs.modify i (modifyAt f · q), true)
        | none => applyFirstIn test f cs = (cs, false) := by
      intro cs
      induction cs with
      | nil => intro i0 _; rfl
      | cons c cs ih2 =>
        intro i0 hsub
        have a := ih c (hsub c (by simp))
        have b := ih2 (i0 + 1) (fun d hd => hsub d (by simp [hd]))
        rw [matchingPathsIn, List.head?_append, List.head?_map]
        cases hc : (c.matchingPaths test).head? with
        | some p =>
          rw [hc] at a
          dsimp only at a
          refine ⟨0, p, rfl, ?_⟩
          rw [applyFirstIn, a]
          rfl
        | none =>
          rw [hc] at a
          dsimp only at a
          simp only [Option.map_none, Option.none_or]
          cases hd : (matchingPathsIn test (i0 + 1) cs).head? with
          | some p =>
            rw [hd] at b
            obtain ⟨i, q, e1, e2⟩ := b
            refine ⟨i + 1, q, ?_, ?_⟩
            · rw [e1]; congr 1; omega
            · rw [applyFirstIn, a, e2]; rfl
          | none =>
            rw [hd] at b
            dsimp only at b ⊢
            rw [applyFirstIn, a, b]; rfl
    have k := key w.exposed 0 (fun _ h => h)
    rw [applyFirst_eq, matchingPaths_eq]
    cases ht : test w.attrs with
    | true => rfl
    | false =>
      simp only [Bool.false_eq_true, if_false, List.nil_append]
      cases w with
      | node kd a cs =>
        cases kd with
        | leaf => rfl
        | press => rfl
        | container | wrapper | screen | app | palette =>
          all_goals
            dsimp only [exposed] at k ⊢
            cases hd : (matchingPathsIn test 0 cs).head? with
            | some p =>
              rw [hd] at k
              obtain ⟨i, q, e1, e2⟩ := k
              rw [Nat.zero_add] at e1
              subst e1
              simp only [e2]
              rfl
            | none =>
              rw [hd] at k
              dsimp only at k ⊢
              rw [k]

/-- C72: `query_one` changes the first matching widget in document order and no other; it reports whether
there was one. -/
theorem queryOne_spec (test : Attrs → Bool) (f : Attrs → Attrs) (w : W) :
    (w.applyFirst test f).2 = (w.paths.any (w.has test)) ∧
    ∀ q, (w.applyFirst test f).1.attrsAt q =
      if (w.paths.filter (w.has test)).head? = some q then (w.attrsAt q).map f else w.attrsAt q := by
  rw [applyFirst_modify, matching_spec]
  cases h : (w.paths.filter (w.has test)).head? with
  | none =>
    refine ⟨?_, fun q => by simp⟩
    rw [List.head?_eq_none_iff, List.filter_eq_nil_iff] at h
    symm
    rw [List.any_eq_false]
    exact h
  | some p =>
    refine ⟨?_, fun q => ?_⟩
    · symm
      rw [List.any_eq_true]
      have := List.mem_of_mem_head? (by rw [h]; rfl : p ∈ (w.paths.filter (w.has test)).head?)
      exact ⟨p, List.mem_filter.1 this⟩
    · dsimp only
      rw [modifyAt_spec]
      by_cases hq : q = p
      · rw [if_pos hq, if_pos (by rw [hq])]
      · rw [if_neg hq, if_neg (by simpa using fun e => hq e.symm)]

example : demo.paths.filter (demo.has (·.typeName = "Button")) = [[0], [2]] := by decide +kernel

/-- C72: `last` changes the last matching widget and no other. -/
theorem queryLast_spec (test : Attrs → Bool) (f : Attrs → Attrs) (w : W) :
    (w.applyLast test f).2 = (w.paths.any (w.has test)) ∧
    ∀ q, (w.applyLast test f).1.attrsAt q =
      if (w.paths.filter (w.has test)).getLast? = some q then (w.attrsAt q).map f else w.attrsAt q := by
  unfold applyLast
  rw [matching_spec]
  cases h : (w.paths.filter (w.has test)).getLast? with
  | none =>
    refine ⟨?_, fun q => by simp⟩
    rw [List.getLast?_eq_none_iff, List.filter_eq_nil_iff] at h
    symm
    rw [List.any_eq_false]
    exact h
  | some p =>
    refine ⟨?_, fun q => ?_⟩
    · symm
      rw [List.any_eq_true]
      have := List.mem_of_getLast? h
      exact ⟨p, List.mem_filter.1 this⟩
    · dsimp only
      rw [modifyAt_spec]
      by_cases hq : q = p
      · rw [if_pos hq, if_pos (by rw [hq])]
      · rw [if_neg hq, if_neg (by simpa using fun e => hq e.symm)]

example : (demo.paths.filter (demo.has (·.focusable))).getLast? = some [2] := by decide +kernel

theorem applyAllIn_eq (test : Attrs → Bool) (f : Attrs → Attrs) (cs : List W) :
    applyAllIn test f cs = cs.map (applyAll test f) := by
  induction cs with
  | nil => rfl
  | cons c cs ih => rw [applyAllIn, ih]; rfl

theorem applyAll_exposed (test : Attrs → Bool) (f : Attrs → Attrs) (w : W) :
    (w.applyAll test f).exposed = w.exposed.map (applyAll test f) := by
  cases w with
  | node k a cs => cases k <;> simp [applyAll, exposed, applyAllIn_eq]

theorem applyAll_attrs (test : Attrs → Bool) (f : Attrs → Attrs) (w : W) :
    (w.applyAll test f).attrs = if test w.attrs then f w.attrs else w.attrs := by
  cases w with
  | node k a cs => cases k <;> rfl

/-- C72: `for_each` changes every matching widget and no other. -/
theorem queryAll_spec (test : Attrs → Bool) (f : Attrs → Attrs) (w : W) (q : List Nat) :
    (w.applyAll test f).attrsAt q = (w.attrsAt q).map fun a => if test a then f a else a := by
  induction q generalizing w with
  | nil => rw [attrsAt_nil, attrsAt_nil, applyAll_attrs]; rfl
  | cons i q ih =>
    rw [attrsAt_cons, attrsAt_cons, applyAll_exposed, List.getElem?_map]
    cases w.exposed[i]? with
    | none => rfl
    | some c => exact ih c

example : (demo.applyAll (·.typeName = "Button") (fun a => { a with disabled := true })).attrsAt [2] ≠
    demo.attrsAt [2] := by decide +kernel

end W

theorem dropWhile_self {ws : Char → Bool} {l : List Char} (h : ∀ c ∈ l, ws c = false) : l.dropWhile ws = l := by
  cases l with
  | nil => rfl
  | cons c l => rw [List.dropWhile_cons_of_neg (by simp [h c])]

theorem dropWhile_pad (ws : Char → Bool) : ∀ (pre rest : List Char), (∀ c ∈ pre, ws c = true) →
    (pre ++ rest).dropWhile ws = rest.dropWhile ws := by
  intro pre
  induction pre with
  | nil => intro rest _; rfl
  | cons c pre ih =>
    intro rest hp
    rw [List.cons_append, List.dropWhile_cons_of_pos (hp c (by simp))]
    exact ih rest (fun d hd => hp d (by simp [hd]))

/-- The branch of the parser for selectors that do not begin with `#`. -/
theorem parse_plain (ws : Char → Bool) (s0 : List Char) (c : Char) (s : List Char) (ht : trim ws s0 = c :: s)
    (hc : c ≠ '#') :
    parseSelector ws s0 = if '#' ∈ c :: s then
      ⟨if (c :: s).takeWhile (· ≠ '#') = [] then none else some (String.ofList ((c :: s).takeWhile (· ≠ '#'))),
        if ((c :: s).dropWhile (· ≠ '#')).drop 1 = [] then none
        else some (String.ofList (((c :: s).dropWhile (· ≠ '#')).drop 1))⟩
      else ⟨some (String.ofList (c :: s)), none⟩ := by
  unfold parseSelector
  rw [ht]
  dsimp only
  split
  · rename_i h; cases h
  · rename_i h; exact absurd (List.cons.inj h).1 hc
  · rfl

theorem trim_pad (ws : Char → Bool) (l : List Char) (pre suf : List Char) (h1 : ∀ c ∈ pre, ws c = true)
    (h2 : ∀ c ∈ suf, ws c = true) (h : ∀ c ∈ l, ws c = false) (hne : l ≠ []) :
    trim ws (pre ++ l ++ suf) = l := by
  unfold trim
  rw [List.append_assoc, dropWhile_pad ws _ _ h1]
  obtain ⟨c, l', rfl⟩ := List.exists_cons_of_ne_nil hne
  rw [List.cons_append, List.dropWhile_cons_of_neg (by simp [h c]), ← List.cons_append, List.reverse_append,
    dropWhile_pad ws _ _ (fun c hc => h2 c (List.mem_reverse.1 hc)),
    dropWhile_self (fun d hd => h d (List.mem_reverse.1 hd)), List.reverse_reverse]

/-- C72: a selector `Type#id`, `Type` or `#id`, with blanks around it, matches exactly the widgets with
that type and id; without either it matches nothing. -/
theorem selector_spec (ws : Char → Bool) (hws : ws '#' = false) (ty id pre suf : List Char)
    (h1 : ∀ c ∈ pre, ws c = true) (h2 : ∀ c ∈ suf, ws c = true)
    (hty : ∀ c ∈ ty, ws c = false ∧ c ≠ '#') (hid : ∀ c ∈ id, ws c = false ∧ c ≠ '#') (a : Attrs) :
    (ty ≠ [] → id ≠ [] → (parseSelector ws (pre ++ (ty ++ '#' :: id) ++ suf)).matches a =
      decide (a.typeName = String.ofList ty ∧ a.id = some (String.ofList id))) ∧
    (ty ≠ [] → (parseSelector ws (pre ++ ty ++ suf)).matches a = decide (a.typeName = String.ofList ty)) ∧
    ((parseSelector ws (pre ++ ('#' :: id) ++ suf)).matches a = decide (a.id = some (String.ofList id))) ∧
    (parseSelector ws pre).matches a = false := by
  refine ⟨fun n1 n2 => ?_, fun n1 => ?_, ?_, ?_⟩
  · have ht : trim ws (pre ++ (ty ++ '#' :: id) ++ suf) = ty ++ '#' :: id := by
      refine trim_pad ws _ _ _ h1 h2 ?_ (by simp)
      intro c hc
      rw [List.mem_append, List.mem_cons] at hc
      rcases hc with h | h | h
      · exact (hty c h).1
      · rw [h]; exact hws
      · exact (hid c h).1
    obtain ⟨c, ty', rfl⟩ := List.exists_cons_of_ne_nil n1
    have hc := (hty c (by simp)).2
    have tw : ((c :: ty') ++ '#' :: id).takeWhile (· ≠ '#') = c :: ty' := by
      rw [List.takeWhile_append_of_pos (by intro d hd; simpa using (hty d hd).2)]
      simp
    have dw : ((c :: ty') ++ '#' :: id).dropWhile (· ≠ '#') = '#' :: id := by
      rw [List.dropWhile_append_of_pos (by intro d hd; simpa using (hty d hd).2)]
      simp
    · rw [parse_plain ws _ c (ty' ++ '#' :: id) ht hc, if_pos (by simp), ← List.cons_append, tw, dw]
      simp only [List.drop_succ_cons, List.drop_zero, if_neg n2, if_neg n1, SimpleSelector.matches,
        Option.isSome_some, true_and, ne_eq, Option.some.injEq, Bool.or_true]
      by_cases e1 : a.typeName = String.ofList (c :: ty')
      · by_cases e2 : a.id = some (String.ofList id)
        · simp [e1, e2]
        · have : ¬ some (String.ofList id) = a.id := fun e => e2 e.symm
          simp [e1, e2, this]
      · have : ¬ String.ofList (c :: ty') = a.typeName := fun e => e1 e.symm
        rw [if_pos this, decide_eq_false (fun h => e1 h.1)]
  · have ht : trim ws (pre ++ ty ++ suf) = ty := trim_pad ws _ _ _ h1 h2 (fun c hc => (hty c hc).1) n1
    obtain ⟨c, ty', rfl⟩ := List.exists_cons_of_ne_nil n1
    have hc := (hty c (by simp)).2
    · rw [parse_plain ws _ c ty' ht hc, if_neg (fun hm => (hty _ hm).2 rfl)]
      simp only [SimpleSelector.matches, Option.isSome_some, true_and, ne_eq, Option.some.injEq,
        Option.isSome_none, Bool.false_eq_true, false_and, if_false, Bool.true_or]
      by_cases e1 : a.typeName = String.ofList (c :: ty')
      · simp [e1]
      · have : ¬ String.ofList (c :: ty') = a.typeName := fun e => e1 e.symm
        rw [if_pos this, decide_eq_false e1]
  · have ht : trim ws (pre ++ ('#' :: id) ++ suf) = '#' :: id := by
      refine trim_pad ws _ _ _ h1 h2 ?_ (by simp)
      intro c hc
      rcases List.mem_cons.1 hc with h | h
      · rw [h]; exact hws
      · exact (hid c h).1
    unfold parseSelector
    rw [ht]
    simp only [SimpleSelector.matches, Option.isSome_none, Bool.false_eq_true, false_and, if_false,
      Option.isSome_some, true_and, ne_eq, Bool.or_true]
    by_cases e2 : a.id = some (String.ofList id)
    · simp [e2]
    · have : ¬ some (String.ofList id) = a.id := fun e => e2 e.symm
      simp [e2, this]
  · have ht : trim ws pre = [] := by
      unfold trim
      have := dropWhile_pad ws pre [] h1
      rw [List.append_nil] at this
      rw [this]
      rfl
    unfold parseSelector
    rw [ht]
    rfl

example : parseSelector (· = ' ') " Button#ok ".toList = ⟨some "Button", some "ok"⟩ := by decide +kernel

/-! ### C73: bubbling -/

theorem handle_self {M : Type} (h : Handler M) (w : W) (e : Envelope M) (hw : handlesItself w.kind = true) :
    handle h w e = ([w.attrs], (h w.attrs e).1, (h w.attrs e).2) := by
  cases w with
  | node k a cs => cases k <;> first | rfl | cases hw

/-- C73, the part that holds: as long as the ancestors handle messages themselves (everything except
Screen, AppWidget and CommandPalette), bubbling asks them one after the other, nearest first, until one
stops the message, and each sees the message the one before returned.  `m` ancestors up from the widget
at `path`, `k` are left above.  Missing: the screen and the application above them
(`bubble_screen_counterexample`). -/
theorem bubble_climbs_partial {M : Type} (h : Handler M) (root : W) (path : List Nat) (k m : Nat) (e : Envelope M)
    (hv : (root.at? path).isSome)
    (hself : ∀ d, k ≤ d → d < k + m → ∀ c, root.at? (path.take d) = some c → handlesItself c.kind = true) :
    bubbleLoop h root path (k + m) e =
      ((climb h (root.ancestors path k m) e).1 ++ (bubbleLoop h root path k (climb h (root.ancestors path k m) e).2).1,
        (bubbleLoop h root path k (climb h (root.ancestors path k m) e).2).2) := by
  have hpre : ∀ (w : W) (p : List Nat) (d : Nat), (w.at? p).isSome → (w.at? (p.take d)).isSome := by
    intro w p
    induction p generalizing w with
    | nil => intro d _; simp [at?]
    | cons i p ih =>
      intro d hd
      cases d with
      | zero => rfl
      | succ d =>
        rw [List.take_succ_cons]
        rw [at?_cons] at hd ⊢
        cases hc : w.exposed[i]? with
        | none => rw [hc] at hd; cases hd
        | some c => rw [hc] at hd; exact ih c d hd
  induction m generalizing e with
  | zero => rfl
  | succ m ih =>
    rw [show k + (m + 1) = (k + m) + 1 by omega, bubbleLoop]
    cases hc : root.at? (path.take (k + m)) with
    | none => have := hpre root path (k + m) hv; rw [hc] at this; cases this
    | some c =>
      have ha : root.ancestors path k (m + 1) = c.attrs :: root.ancestors path k m := by
        rw [ancestors, attrsAt, hc]; rfl
      rw [ha]
      cases hb : e.bubbling with
      | false =>
        have hnil : ∀ j, bubbleLoop h root path j e = ([], e) := by
          intro j
          cases j with
          | zero => rfl
          | succ j => rw [bubbleLoop, hb]; simp
        simp only [climb, hb, Bool.false_eq_true, if_false, hnil, List.append_nil]
      | true =>
        have hn : navigateAndHandle h root (path.take (k + m)) e =
            ([c.attrs], (h c.attrs e).1, (h c.attrs e).2) := by
          unfold navigateAndHandle
          rw [hc]
          exact handle_self h c e (hself (k + m) (by omega) (by omega) c hc)
        have hi := fun e => ih e (fun d h1 h2 => hself d h1 (by omega))
        simp only [if_true, hn, climb, hb]
        cases hm : (h c.attrs e).2 with
        | none =>
          simp only [Option.getD_none]
          rw [hi]
          rfl
        | some msg =>
          simp only [Option.getD_some]
          rw [hi]
          rfl

/-- C73: asking one after the other is asking the nearest ancestors, each once; if someone is left out
the message was stopped, and if nobody stops messages everyone is asked. -/
theorem climb_spec {M : Type} (h : Handler M) (as : List Attrs) (e : Envelope M) :
    (climb h as e).1 <+: as ∧ ((climb h as e).1 ≠ as → (climb h as e).2.bubbling = false) ∧
    (e.bubbling = true → (∀ a ∈ as, ∀ e : Envelope M, e.bubbling = true → (h a e).1.bubbling = true) →
      (climb h as e).1 = as) := by
  induction as generalizing e with
  | nil => exact ⟨List.prefix_rfl, fun h => absurd rfl h, fun _ _ => rfl⟩
  | cons a as ih =>
    rw [climb]
    cases hb : e.bubbling with
    | false =>
      simp only [Bool.false_eq_true, if_false]
      exact ⟨List.nil_prefix, fun _ => hb, fun h => by cases h⟩
    | true =>
      simp only [if_true]
      obtain ⟨i1, i2, i3⟩ := ih { (h a e).1 with message := (h a e).2.getD (h a e).1.message }
      refine ⟨(List.prefix_cons_inj a).2 i1, fun hne => i2 (fun e => hne (by rw [e])), fun _ hall => ?_⟩
      rw [i3 (hall a (by simp) e hb) (fun b hb' => hall b (by simp [hb']))]

/-- A column in a column, as in `bubble_climbs_partial`: both are asked, the inner one first. -/
example :
    let inner : W := .node .container { id := some "inner" } [button "a"]
    let root : W := .node .container { id := some "outer" } [inner]
    let h : Handler Nat := fun _ e => ({ e with message := e.message + 1 }, none)
    (root.at? [0, 0]).isSome ∧ (root.ancestors [0, 0] 0 2).map (·.id) = [some "inner", some "outer"] ∧
    ((bubbleLoop h root [0, 0] 2 ⟨5, none, "", true⟩).1.map (·.id) = [some "inner", some "outer"]) ∧
    (bubbleLoop h root [0, 0] 2 ⟨5, none, "", true⟩).2.message = 7 := by
  decide +kernel

/-- C73 is false under a screen and an application: both forward the message down again, so the column
is asked three times and a sibling that is not an ancestor is asked twice. -/
theorem bubble_screen_counterexample :
    ∃ (t : WidgetTree) (h : Handler Nat) (e : Envelope Nat), e.bubbling = true ∧
      (t.bubble h e).1.map (·.id) = [some "column", some "column", some "label", some "column", some "label"] ∧
      t.root.attrsAt [0, 1] = some { id := some "label" } ∧ t.path = [0, 0, 0] := by
  refine ⟨⟨.node .app {} [.node .screen { typeName := "Screen" }
      [.node .container { id := some "column" } [button "a"], .node .leaf { id := some "label" } []]], [0, 0, 0], 0⟩,
    fun _ e => (e, none), ⟨5, none, "", true⟩, rfl, ?_, ?_, rfl⟩ <;> decide +kernel

/-! ### C74: walks -/

namespace W

/-- C74: collecting the actions returns every pending action once, in document order; nothing is
pending afterwards, and nothing else changes. -/
theorem collect_spec (w : W) :
    w.collectActions.1 = w.nodes.filterMap (·.action) ∧
    w.collectActions.2.nodes = w.nodes.map (fun a => { a with action := none }) := by
  induction w using induct with
  | h k a cs ih =>
    have key : (collectActionsIn cs).1 = (nodesIn cs).filterMap (·.action) ∧
        nodesIn (collectActionsIn cs).2 = (nodesIn cs).map (fun a => { a with action := none }) := by
      induction cs with
      | nil => exact ⟨rfl, rfl⟩
      | cons c cs ih2 =>
        obtain ⟨a1, a2⟩ := ih c (by simp)
        obtain ⟨b1, b2⟩ := ih2 (fun d hd => ih d (by simp [hd]))
        rw [collectActionsIn, nodesIn]
        refine ⟨?_, ?_⟩
        · simp only [a1, b1, List.filterMap_append]
        · simp only [nodesIn, a2, b2, List.map_append]
    rw [collectActions, nodes]
    refine ⟨?_, ?_⟩
    · simp only [key.1]
      cases ha : a.action <;> simp [ha]
    · simp only [nodes, key.2, List.map_cons]

/-- C74: a second collection finds nothing. -/
theorem collect_twice (w : W) : w.collectActions.2.collectActions.1 = [] := by
  rw [(collect_spec _).1, (collect_spec w).2, List.filterMap_map, List.filterMap_eq_nil_iff]
  intro a _
  rfl

example :
    (W.node .container {} [.node .press { action := some "quit" } [], .node .leaf { action := some "open" } []]).nodes.filterMap
      (·.action) = ["quit", "open"] := by decide +kernel

/-- C74: clearing the hover state clears it everywhere and changes nothing else. -/
theorem clearHover_spec (w : W) : w.clearAllHover.nodes = w.nodes.map (fun a => { a with hovered := false }) := by
  induction w using induct with
  | h k a cs ih =>
    have key : nodesIn (clearAllHoverIn cs) = (nodesIn cs).map (fun a => { a with hovered := false }) := by
      induction cs with
      | nil => rfl
      | cons c cs ih2 =>
        rw [clearAllHoverIn, nodesIn, nodesIn, ih c (by simp), ih2 (fun d hd => ih d (by simp [hd])), List.map_append]
    rw [clearAllHover, nodes, nodes, key, List.map_cons]

/-- C74: the tooltip is that of the first hovered widget that has one. -/
theorem tooltip_spec (w : W) :
    w.hoveredTooltip = w.nodes.findSome? fun a => if a.hovered then a.tooltip else none := by
  induction w using induct with
  | h k a cs ih =>
    have key : hoveredTooltipIn cs = (nodesIn cs).findSome? fun a => if a.hovered then a.tooltip else none := by
      induction cs with
      | nil => rfl
      | cons c cs ih2 =>
        rw [hoveredTooltipIn, nodesIn, ih c (by simp), ih2 (fun d hd => ih d (by simp [hd])), List.findSome?_append]
        cases List.findSome? _ c.nodes <;> rfl
    rw [hoveredTooltip, nodes, key, List.findSome?_cons]
    cases a.hovered <;> cases a.tooltip <;> rfl

/-- C74: after clearing the hover state there is no tooltip. -/
theorem no_tooltip_after_clear (w : W) : w.clearAllHover.hoveredTooltip = none := by
  rw [tooltip_spec, clearHover_spec, List.findSome?_map, List.findSome?_eq_none_iff]
  intro a _
  rfl

example :
    (W.node .container { hovered := true } [.node .press { hovered := true, tooltip := some "Save" } []]).hoveredTooltip =
      some "Save" := by decide +kernel

end W

end Textual.Tree
