/-! Which values a visitor is shown (src/visitor.rs, derive/src/visit.rs). -/
namespace Verif.Visit

/-- src/visitor.rs:95-136 `VisitTypes`, the flags. -/
inductive Kind where
  | rules | properties | urls | colors | images | lengths | angles | ratios | resolutions | times | customIdents | dashedIdents
  | variables | environmentVariables | mediaQueries | supportsConditions | selectors | functions | tokens
deriving DecidableEq, Repr

/-- Types of values. `plain` stands for all types without visited values in them (strings, numbers, keywords, `Ident`, `Location`, …).
`calcLength`, `mathLength` are `Calc<Length>`, `MathFunction<Length>`; `calcLp`, `mathLp` the same of `LengthPercentage`. -/
inductive Ty where
  | plain | tokenList | tokenOrValue | cssColor | unresolvedColor | url | variable | environmentVariable | environmentVariableName
  | dashedIdentReference | dashedIdent | customIdent | function | lengthValue | angle | time | resolution | ratio | animationName
  | image | imageSet | imageSetOption | gradient | length | calcLength | mathLength | lengthPercentage | calcLp | mathLp
  | mediaList | mediaQuery | mediaCondition | mediaFeature | mediaFeatureName | mediaFeatureValue | supportsCondition
  | scrollStateQuery | scrollStateFeature
deriving DecidableEq, Repr

/-- What `derive(Visit)` is told about a type: the flag of its own visitor method, the types of its fields, those marked `skip_type`,
and the list given with `visit_types`. -/
structure Decl where
  own : Option Kind := none
  fields : List Ty := []
  skipped : List Ty := []
  given : Option (List Kind) := none

/-- The declarations: src/properties/custom.rs:201-247 (`TokenList`, `TokenOrValue`), 1173-1186, 1228-1245, 1404-1417, 1451-1493; src/values/color.rs:36-69;
src/values/url.rs:13-25; src/values/ident.rs:22-28, 145-151, 196-207; src/values/length.rs:94-98, 532-547, src/values/percentage.rs:180-195, src/values/calc.rs:33-54, 236-262;
src/values/{angle,time,resolution,ratio}.rs; src/properties/animation.rs:29-46; src/values/image.rs:22-42, 316-331, 398-415; src/values/gradient.rs (all kinds of gradients in one);
src/media_query.rs:33-45, 261-277, 515-543, 957-1011, 1224-1237, 1579-1605; src/rules/supports.rs:90-128; src/rules/container.rs:143-180. -/
def decl : Ty → Decl
  | .plain => {}
  | .tokenList => { own := some .tokens, fields := [.tokenOrValue] }
  | .tokenOrValue => {
      own := some .tokens
      fields := [.plain, .cssColor, .unresolvedColor, .url, .variable, .environmentVariable, .function, .lengthValue, .angle, .time, .resolution, .dashedIdent, .animationName]
      given := some [.tokens, .colors, .urls, .variables, .environmentVariables, .functions, .lengths, .angles, .times, .resolutions, .dashedIdents] }
  | .cssColor => { own := some .colors, fields := [.plain], skipped := [.cssColor] }
  | .unresolvedColor => { fields := [.plain, .tokenList] }
  | .url => { own := some .urls, fields := [.plain] }
  | .variable => { own := some .variables, fields := [.dashedIdentReference, .tokenList] }
  | .environmentVariable => { own := some .environmentVariables, fields := [.environmentVariableName, .plain, .tokenList] }
  | .environmentVariableName => { fields := [.plain, .dashedIdentReference, .customIdent] }
  | .dashedIdentReference => { fields := [.dashedIdent, .plain] }
  | .dashedIdent => { own := some .dashedIdents, fields := [.plain] }
  | .customIdent => { own := some .customIdents, fields := [.plain] }
  | .function => { own := some .functions, fields := [.plain, .tokenList] }
  | .lengthValue => { own := some .lengths, fields := [.plain] }
  | .angle => { own := some .angles, fields := [.plain] }
  | .time => { own := some .times, fields := [.plain] }
  | .resolution => { own := some .resolutions, fields := [.plain] }
  | .ratio => { own := some .ratios, fields := [.plain] }
  | .animationName => { fields := [.customIdent, .plain] }
  | .image => { own := some .images, fields := [.url, .gradient, .imageSet] }
  | .imageSet => { fields := [.imageSetOption, .plain] }
  | .imageSetOption => { fields := [.resolution, .plain], skipped := [.image] }
  | .gradient => { fields := [.plain, .cssColor, .angle, .length, .lengthPercentage] }
  | .length => { fields := [.lengthValue], skipped := [.calcLength] }
  | .calcLength => { fields := [.length, .plain], skipped := [.calcLength, .mathLength] }
  | .mathLength => { fields := [.calcLength, .plain] }
  | .lengthPercentage => { fields := [.lengthValue, .plain], skipped := [.calcLp] }
  | .calcLp => { fields := [.lengthPercentage, .plain], skipped := [.calcLp, .mathLp] }
  | .mathLp => { fields := [.calcLp, .plain] }
  | .mediaList => { own := some .mediaQueries, fields := [.mediaQuery] }
  | .mediaQuery => { own := some .mediaQueries, fields := [.plain, .mediaCondition] }
  | .mediaCondition => { fields := [.mediaFeature, .tokenList], skipped := [.mediaCondition, .plain] }
  | .mediaFeature => { own := some .mediaQueries, fields := [.mediaFeatureName, .mediaFeatureValue, .plain] }
  | .mediaFeatureName => { fields := [.plain, .dashedIdent] }
  | .mediaFeatureValue => { own := some .mediaQueries, fields := [.length, .plain, .resolution, .ratio, .environmentVariable] }
  | .supportsCondition => { own := some .supportsConditions, fields := [.plain], skipped := [.supportsCondition] }
  | .scrollStateQuery => { fields := [.scrollStateFeature], skipped := [.scrollStateQuery, .plain] }
  | .scrollStateFeature => { fields := [.mediaFeatureName, .mediaFeatureValue, .plain] }

/-- derive/src/visit.rs:119-124, 145-151, 189, 209-213, 229-236: the constant `CHILD_TYPES`. The Rust compiler evaluates it along the fields that are not skipped,
which go at most eleven levels deep here; the number is the depth up to which it is evaluated. -/
def childTypesN : Nat → Ty → List Kind
  | 0, _ => []
  | n + 1, t =>
    match (decl t).given with
    | some ks => ks
    | none => (decl t).fields.flatMap (childTypesN n) ++ (decl t).own.toList

/-- `CHILD_TYPES` of a type. -/
def childTypes (t : Ty) : List Kind := childTypesN 12 t

/-- A value of a type and the values in its fields (through `Box`, `Vec` and `Option`, src/visitor.rs:335-391, which change nothing). `id` tells values apart. -/
inductive Node where
  | mk (ty : Ty) (id : Nat) (children : List Node)

/-- The type of a value. -/
def Node.ty : Node → Ty
  | .mk ty _ _ => ty

/-- The number of a value. -/
def Node.id : Node → Nat
  | .mk _ id _ => id

mutual
/-- derive/src/visit.rs:215-223 `visit`, with a visitor whose methods note the value and visit its children, as the default methods do (src/visitor.rs:172-315).
`asked` is the result of the visitor's `visit_types`. -/
def visit (asked : List Kind) : Node → List Nat
  | .mk ty id children =>
    match (decl ty).own with
    | some k => if k ∈ asked then id :: visitChildren asked (.mk ty id children) else visitChildren asked (.mk ty id children)
    | none => visitChildren asked (.mk ty id children)
termination_by n => (sizeOf n, 1)

/-- derive/src/visit.rs:240-248 `visit_children`. -/
def visitChildren (asked : List Kind) : Node → List Nat
  | .mk ty _ children => if (childTypes ty).any (· ∈ asked) then visitAll asked children else []
termination_by n => (sizeOf n, 0)

/-- The fields one after the other. -/
def visitAll (asked : List Kind) : List Node → List Nat
  | [] => []
  | c :: cs => visit asked c ++ visitAll asked cs
termination_by ns => (sizeOf ns, 0)
end

end Verif.Visit
