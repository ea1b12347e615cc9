/-! Model of the printing of container conditions (src/rules/container.rs, src/media_query.rs:813-850). -/

namespace Verif.Container

/-- `Operator` (src/media_query.rs:505-513). -/
inductive Op where
  | and | or
  deriving DecidableEq, Repr

/-- Component values of a condition: a size feature, a declaration or a scroll state (without parentheses), the words `not`, `and` and
`or`, and blocks `(…)`, `style(…)` and `scroll-state(…)`. -/
inductive Tok where
  | atom (n : Nat)
  | not
  | op (o : Op)
  | paren (ts : List Tok)
  | style (ts : List Tok)
  | scroll (ts : List Tok)

/-- `StyleQuery` and `ScrollStateQuery` (src/rules/container.rs:121-187): they have the same shape. -/
inductive Sub where
  | leaf (n : Nat)
  | not (q : Sub)
  | op (o : Op) (qs : List Sub)

/-- `ContainerCondition` (src/rules/container.rs:53-78), but `Unknown` (only with error recovery). -/
inductive Con where
  | feature (n : Nat)
  | not (c : Con)
  | op (o : Op) (cs : List Con)
  | style (q : Sub)
  | scroll (q : Sub)

/-- `to_css_with_parens_if_needed` (src/media_query.rs:813-829). -/
def wrap (p : Bool) (ts : List Tok) : List Tok := if p then [.paren ts] else ts

/-- `needs_parens` of style queries (src/rules/container.rs:316-322), and with `own` of scroll state queries (:280-286), where the
feature writes its own parentheses. -/
def Sub.needs (own : Bool) (parent : Option Op) : Sub → Bool
  | .leaf _ => !own
  | .not _ => true
  | .op o _ => some o != parent

mutual
/-- `to_css` of style queries (src/rules/container.rs:388-406), and with `own` of scroll state queries (:408-426). -/
def Sub.toks (own : Bool) : Sub → List Tok
  | .leaf n => if own then [.paren [.atom n]] else [.atom n]
  | .not q => .not :: wrap (q.needs own none) (q.toks own)
  | .op o qs => Sub.opToks own o qs
/-- `operation_to_css` (src/media_query.rs:831-850). -/
def Sub.opToks (own : Bool) (o : Op) : List Sub → List Tok
  | [] => []
  | [q] => wrap (q.needs own (some o)) (q.toks own)
  | q :: qs => wrap (q.needs own (some o)) (q.toks own) ++ .op o :: Sub.opToks own o qs
end

/-- `needs_parens` (src/rules/container.rs:248-257). Size features are never written as several conditions, because range syntax
is not downleveled in container queries (src/rules/container.rs:490-496). -/
def Con.needs (parent : Option Op) : Con → Bool
  | .feature _ => false
  | .not _ => true
  | .op o _ => some o != parent
  | .style _ => false
  | .scroll _ => false

/-- src/rules/container.rs:371-382: the feature brings its parentheses, everything else gets some. Both are the block of
`scroll-state(…)`. -/
def scrollToks : Sub → List Tok
  | .leaf n => [.scroll [.atom n]]
  | q => [.scroll (q.toks true)]

mutual
/-- `to_css` of `ContainerCondition` (src/rules/container.rs:351-386). -/
def Con.toks : Con → List Tok
  | .feature n => [.paren [.atom n]]
  | .not c => .not :: wrap (c.needs none) c.toks
  | .op o cs => Con.opToks o cs
  | .style q => [.style (q.toks false)]
  | .scroll q => scrollToks q
/-- `operation_to_css` (src/media_query.rs:831-850). -/
def Con.opToks (o : Op) : List Con → List Tok
  | [] => []
  | [c] => wrap (c.needs (some o)) c.toks
  | c :: cs => wrap (c.needs (some o)) c.toks ++ .op o :: Con.opToks o cs
end

end Verif.Container
