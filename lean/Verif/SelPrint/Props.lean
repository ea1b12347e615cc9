import Verif.SelPrint.Round
/-!
# Printing selectors: the theorem (C194)
-/
namespace Verif.SelPrint
open Verif.SelParse

/-- **C194.** What is printed for a selector list that the parser returned is accepted by the parser, has as many selectors, and each of them matches
what the selector before matched, whatever the components mean; in both styles. What is missing: the selectors that `Printable` excludes, which the code
prints wrong, see the theorems `…_wrong`. -/
theorem print_parse_partial (o : Opts) (p : Style) (ts : List Tok) (l : List Sel) (h : parse o ts = some l) (hp : PrintableL l) :
    ∃ l', parse o (printList p l) = some l' ∧ ∀ (E : Type) (M : Meaning E), l'.map (Matches M) = l.map (Matches M) := by
  obtain ⟨D, hD, _⟩ := forgiving_exists_unique o
  rw [parse_iff hD] at h
  obtain ⟨ps, ⟨hne, _, _⟩, hr⟩ := h
  have hwf := wfL_of l _ _ _ _ hr
  rw [printableL_mem] at hp
  have hl : l ≠ [] := by
    rintro rfl
    simp only [ReadsP] at hr
    cases ps with
    | nil => exact hne rfl
    | cons q ps => have := (hr q (by simp)).1; simp at this
  obtain ⟨l', h1, h2, h3⟩ := good_list (p := p) hD (cx := .top) (g := sig []) (f := false) (rel := none) (prel := false) l (.inr hl) fun s hs => by
    obtain ⟨s', h⟩ := good_sel (goodS hD s) (hp s hs).2 (hp s hs).1 (wfL_mem hwf hs)
    exact ⟨s', goodPiece_of h⟩
  refine ⟨l', ?_, fun E M => ?_⟩
  · rw [parse_iff hD]
    exact ⟨_, pieces_join (w := []) (by simp [AllWs]) h2, h1 .top [] [] (Le.rfl' _) rfl (by simp [AllWs])⟩
  · have := h3 E M
    rwa [matchL_map, matchL_map] at this

/-- Minified, and an attribute value is an identifier if it is a letter. -/
def mini : Style := ⟨true, fun s => decide (s.length = 1 ∧ s.all Char.isAlpha)⟩
/-- Not minified. -/
def pretty : Style := ⟨false, fun _ => false⟩

/-- `*.a:is(.b) > [x="y"]:nth-child(1)::before, :has(> svg|*)`. -/
def exampleIn : List Tok :=
  [.delim '*', .delim '.', .ident cs!"a", .colon, .func cs!"is" [.delim '.', .ident cs!"b"], .ws, .delim '>', .ws,
   .bracket [.ident cs!"x", .delim '=', .str cs!"y"], .colon, .func cs!"nth-child" [.anb 0 1], .colon, .colon, .ident cs!"before", .comma, .ws,
   .colon, .func cs!"has" [.delim '>', .ws, .ident cs!"svg", .delim '|', .delim '*']]

/-- The selectors of `exampleIn`. -/
def exampleSels : List Sel :=
  [[.type .implicit none, .cls cs!"a", .logical .is [[.cls cs!"b"]], .comb .child, .attr ⟨.none, cs!"x", some (.equal, cs!"y", .dflt)⟩,
    .nth .child 0 1, .pelem cs!"before"],
   [.has [[.pclass cs!"scope", .comb .child, .type (.named cs!"svg") none]]]]

example : parse anyArgs exampleIn = some exampleSels := rfl

/-- No `&ns|*` in a selector without `&`. -/
theorem noAmp_of {s : Sel} (h : Comp.nesting ∉ s) : NoAmpNs s := by
  rintro a b k ns rfl
  simp at h

example : PrintableL exampleSels := by
  simp only [exampleSels, PrintableL, PrintableS, Printable, and_true, true_and]
  refine ⟨noAmp_of (by simp), ⟨⟨by simp [NoAmpType], noAmp_of (by simp)⟩, by simp⟩, noAmp_of (by simp), ?_, noAmp_of (by simp)⟩
  intro s hs
  simp only [List.mem_singleton] at hs
  subst hs
  exact .inr ⟨.child, _, rfl, by simp, by simp [NoScope], noAmp_of (by simp)⟩

/-- `.a.b>[x=y]:first-child:before,:has(>svg|*)`. -/
example : printList mini exampleSels =
    [.delim '.', .ident cs!"a", .delim '.', .ident cs!"b", .delim '>', .bracket [.ident cs!"x", .delim '=', .ident cs!"y"], .colon, .ident cs!"first-child",
     .colon, .ident cs!"before", .comma, .colon, .func cs!"has" [.delim '>', .ident cs!"svg", .delim '|', .delim '*']] := rfl

/-- Meanings exist, and they tell selectors apart. -/
def exampleMeaning : Meaning Bool where
  test c e := (∃ n, c = .cls n ∧ n ≠ cs!"a") → e = true
  move _ e e' := e ≠ e'
  fnTest _ ps e := ∃ q ∈ ps, q e
  fnMove _ _ _ _ := True
  universal e := by simp
  is ps e := Iff.rfl
  firstChild e := by simp
  lastChild e := by simp
  firstOfType e := by simp
  lastOfType e := by simp

example : Matches exampleMeaning [.cls cs!"a"] false ∧ ¬ Matches exampleMeaning [.cls cs!"b"] false ∧ Matches exampleMeaning [.cls cs!"b", .comb .child, .cls cs!"a"] false ∧
    ¬ Matches exampleMeaning [.cls cs!"b", .comb .child, .cls cs!"a"] true := by
  simp [Matches, afterAll, after, exampleMeaning]

/-- `:nth-col(1)` is accepted; it is printed as `:nth-col(` without the rest, which is not accepted. -/
theorem nth_col_wrong : parse anyArgs [.colon, .func cs!"nth-col" [.anb 0 1]] = some [[.nth .col 0 1]] ∧
    parse anyArgs (printList mini [[.nth .col 0 1]]) = none := ⟨rfl, rfl⟩

/-- `.b:is(&a)` is printed as `.b&a`, which is not accepted. -/
theorem is_amp_type_wrong :
    parse anyArgs [.delim '.', .ident cs!"b", .colon, .func cs!"is" [.delim '&', .ident cs!"a"]] = some [[.cls cs!"b", .logical .is [[.nesting, .type .implicit (some cs!"a")]]]] ∧
    printList mini [[.cls cs!"b", .logical .is [[.nesting, .type .implicit (some cs!"a")]]]] = [.delim '.', .ident cs!"b", .delim '&', .ident cs!"a"] ∧
    parse anyArgs [.delim '.', .ident cs!"b", .delim '&', .ident cs!"a"] = none := ⟨rfl, rfl, rfl⟩

/-- `a > &ns|*` is printed as `a>&ns|`; that is read as `a>&`. -/
theorem amp_ns_wrong :
    parse anyArgs [.ident cs!"a", .ws, .delim '>', .ws, .delim '&', .ident cs!"ns", .delim '|', .delim '*'] =
      some [[.type .implicit (some cs!"a"), .comb .child, .nesting, .type (.named cs!"ns") none]] ∧
    printList mini [[.type .implicit (some cs!"a"), .comb .child, .nesting, .type (.named cs!"ns") none]] =
      [.ident cs!"a", .delim '>', .delim '&', .ident cs!"ns", .delim '|'] ∧
    parse anyArgs [.ident cs!"a", .delim '>', .delim '&', .ident cs!"ns", .delim '|'] = some [[.type .implicit (some cs!"a"), .comb .child, .nesting]] := ⟨rfl, rfl, rfl⟩

/-- `:has(:scope)` is printed as `:has()`. -/
theorem has_scope_wrong : parse anyArgs [.colon, .func cs!"has" [.colon, .ident cs!"scope"]] = some [[.has [[.pclass cs!"scope"]]]] ∧
    printList mini [[.has [[.pclass cs!"scope"]]]] = [.colon, .func cs!"has" []] := ⟨rfl, rfl⟩

/-- `:has(:scope.b > a)` is printed as `:has(>.ba)`. -/
theorem has_scope_class_wrong :
    parse anyArgs [.colon, .func cs!"has" [.colon, .ident cs!"scope", .delim '.', .ident cs!"b", .ws, .delim '>', .ws, .ident cs!"a"]] =
      some [[.has [[.pclass cs!"scope", .cls cs!"b", .comb .child, .type .implicit (some cs!"a")]]]] ∧
    printList mini [[.has [[.pclass cs!"scope", .cls cs!"b", .comb .child, .type .implicit (some cs!"a")]]]] =
      [.colon, .func cs!"has" [.delim '>', .delim '.', .ident cs!"b", .ident cs!"a"]] := ⟨rfl, rfl⟩

/-- `:has(a > :scope b)` is printed as `:has(a> b)`: without `:scope`, and the combinator is another one after it is read. -/
theorem has_inner_scope_wrong :
    parse anyArgs [.colon, .func cs!"has" [.ident cs!"a", .delim '>', .colon, .ident cs!"scope", .ws, .ident cs!"b"]] =
      some [[.has [[.type .implicit (some cs!"a"), .comb .child, .pclass cs!"scope", .comb .descendant, .type .implicit (some cs!"b")]]]] ∧
    parse anyArgs (printList mini [[.has [[.type .implicit (some cs!"a"), .comb .child, .pclass cs!"scope", .comb .descendant, .type .implicit (some cs!"b")]]]]) =
      some [[.has [[.type .implicit (some cs!"a"), .comb .child, .type .implicit (some cs!"b")]]]] := ⟨rfl, rfl⟩

/-- `:nth-child(1 of :scope > a)` is printed as `:nth-child(1 of >a)`; that is read as a list without selectors. -/
theorem nth_scope_wrong :
    parse anyArgs [.colon, .func cs!"nth-child" [.anb 0 1, .ws, .ident cs!"of", .ws, .colon, .ident cs!"scope", .delim '>', .ident cs!"a"]] =
      some [[.nthOf .child 0 1 [[.pclass cs!"scope", .comb .child, .type .implicit (some cs!"a")]]]] ∧
    parse anyArgs (printList mini [[.nthOf .child 0 1 [[.pclass cs!"scope", .comb .child, .type .implicit (some cs!"a")]]]]) = some [[.nthOf .child 0 1 []]] := ⟨rfl, rfl⟩

end Verif.SelPrint
