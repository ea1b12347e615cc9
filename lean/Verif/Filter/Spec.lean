import Verif.Filter.Model
/-!
# The grammar and the meaning of filters

filter-effects-1: which component values write which filters. This file uses the types of the model and the readers of values.
-/
namespace Verif.Filters
variable {T N L A C U : Type}

/-- Which values CSS allows: negative numbers and negative blurs are invalid. -/
structure Allowed (N L : Type) where
  num : N → Prop
  blur : L → Prop

/-- `<length>{2,3}`: the third one is the blur, zero if it is missing. -/
inductive Lengths (env : Env T N L A C) (al : Allowed N L) : L → L → L → List T → Prop
  | two {a b : T} {x y : L} (ha : env.len a = some x) (hb : env.len b = some y) : Lengths env al x y env.zeroLen [a, b]
  | three {a b c : T} {x y z : L} (ha : env.len a = some x) (hb : env.len b = some y) (hc : env.len c = some z) (h : al.blur z) :
      Lengths env al x y z [a, b, c]

/-- `[<color>? && <length>{2,3}]`. -/
inductive WritesShadow (env : Env T N L A C) (al : Allowed N L) : Shadow L C → List T → Prop
  | plain {x y z : L} {ts : List T} (h : Lengths env al x y z ts) : WritesShadow env al ⟨env.current, x, y, z⟩ ts
  | before {x y z : L} {ts : List T} {t : T} {c : C} (h : Lengths env al x y z ts) (hc : env.col t = some c) : WritesShadow env al ⟨c, x, y, z⟩ (t :: ts)
  | after {x y z : L} {ts : List T} {t : T} {c : C} (h : Lengths env al x y z ts) (hc : env.col t = some c) : WritesShadow env al ⟨c, x, y, z⟩ (ts ++ [t])

/-- `<number-percentage>?`: 1 if it is missing. -/
inductive Amount (env : Env T N L A C) (al : Allowed N L) : N → List T → Prop
  | missing : Amount env al env.one []
  | given {t : T} {n : N} (h : env.num t = some n) (ha : al.num n) : Amount env al n [t]

/-- `<length>?`: zero if it is missing. -/
inductive Blur (env : Env T N L A C) (al : Allowed N L) : L → List T → Prop
  | missing : Blur env al env.zeroLen []
  | given {t : T} {l : L} (h : env.len t = some l) (ha : al.blur l) : Blur env al l [t]

/-- `[<angle> | <zero>]?`: zero if it is missing. -/
inductive Rotation (env : Env T N L A C) : A → List T → Prop
  | missing : Rotation env env.zeroAng []
  | given {t : T} {a : A} (h : env.ang t = some a) : Rotation env a [t]

/-- `<filter-function> | <url>`. -/
inductive WritesFilter (env : Env T N L A C) (al : Allowed N L) : Filter N L A C U → Comp T U → Prop
  | blur {l : L} {ts : List T} (h : Blur env al l ts) : WritesFilter env al (.blur l) (.fn .blur ts)
  | brightness {n : N} {ts : List T} (h : Amount env al n ts) : WritesFilter env al (.brightness n) (.fn .brightness ts)
  | contrast {n : N} {ts : List T} (h : Amount env al n ts) : WritesFilter env al (.contrast n) (.fn .contrast ts)
  | grayscale {n : N} {ts : List T} (h : Amount env al n ts) : WritesFilter env al (.grayscale n) (.fn .grayscale ts)
  | hueRotate {a : A} {ts : List T} (h : Rotation env a ts) : WritesFilter env al (.hueRotate a) (.fn .hueRotate ts)
  | invert {n : N} {ts : List T} (h : Amount env al n ts) : WritesFilter env al (.invert n) (.fn .invert ts)
  | opacity {n : N} {ts : List T} (h : Amount env al n ts) : WritesFilter env al (.opacity n) (.fn .opacity ts)
  | saturate {n : N} {ts : List T} (h : Amount env al n ts) : WritesFilter env al (.saturate n) (.fn .saturate ts)
  | sepia {n : N} {ts : List T} (h : Amount env al n ts) : WritesFilter env al (.sepia n) (.fn .sepia ts)
  | dropShadow {s : Shadow L C} {ts : List T} (h : WritesShadow env al s ts) : WritesFilter env al (.dropShadow s) (.fn .dropShadow ts)
  | url (u : U) : WritesFilter env al (.url u) (.url u)

/-- `none | <filter-value-list>`: the list is not empty. -/
inductive Writes (env : Env T N L A C) (al : Allowed N L) : FList N L A C U → List (Comp T U) → Prop
  | none : Writes env al .none [.none]
  | filters {fs : List (Filter N L A C U)} {cs : List (Comp T U)} (h : List.Forall₂ (WritesFilter env al) fs cs) (hne : fs ≠ []) :
      Writes env al (.filters fs) cs

/-- What a filter does, from what its numbers, lengths, angles and colours mean. -/
def Filter.map {N' L' A' C' : Type} (n : N → N') (l : L → L') (a : A → A') (c : C → C') : Filter N L A C U → Filter N' L' A' C' U
  | .blur x => .blur (l x)
  | .brightness x => .brightness (n x)
  | .contrast x => .contrast (n x)
  | .grayscale x => .grayscale (n x)
  | .hueRotate x => .hueRotate (a x)
  | .invert x => .invert (n x)
  | .opacity x => .opacity (n x)
  | .saturate x => .saturate (n x)
  | .sepia x => .sepia (n x)
  | .dropShadow s => .dropShadow ⟨c s.color, l s.x, l s.y, l s.blur⟩
  | .url u => .url u

/-- The same for a list. -/
def FList.map {N' L' A' C' : Type} (n : N → N') (l : L → L') (a : A → A') (c : C → C') : FList N L A C U → FList N' L' A' C' U
  | .none => .none
  | .filters fs => .filters (fs.map (Filter.map n l a c))

/-- The values in a filter are allowed. -/
def Filter.Allowed (al : Allowed N L) : Filter N L A C U → Prop
  | .blur l => al.blur l
  | .brightness n | .contrast n | .grayscale n | .invert n | .opacity n | .saturate n | .sepia n => al.num n
  | .dropShadow s => al.blur s.blur
  | _ => True

/-- What is known of values: the defaults are allowed, and a colour does not read as a length. -/
structure Env.Ok (env : Env T N L A C) (al : Allowed N L) : Prop where
  one : al.num env.one
  zero : al.blur env.zeroLen
  apart : ∀ t c, env.col t = some c → env.len t = none

/-- What is printed for a value means the same and is allowed if it was, and the tests for defaults are right. -/
structure Env.Prints {N' L' A' C' : Type} (env : Env T N L A C) (al : Allowed N L) (n : N → N') (l : L → L') (a : A → A') (c : C → C') : Prop where
  num : ∀ x, ∃ x', env.num (env.printNum x) = some x' ∧ n x' = n x ∧ (al.num x → al.num x')
  len : ∀ x, ∃ x', env.len (env.printLen x) = some x' ∧ l x' = l x ∧ (al.blur x → al.blur x')
  ang : ∀ x, ∃ x', env.ang (env.printAng x) = some x' ∧ a x' = a x
  col : ∀ x, env.isCurrent x = false → ∃ x', env.col (env.printCol x) = some x' ∧ c x' = c x
  one : ∀ x, env.isOne x = true → n x = n env.one
  zeroLen : ∀ x, env.isZeroLen x = true → l x = l env.zeroLen
  zeroAng : ∀ x, env.isZeroAng x = true → a x = a env.zeroAng
  current : ∀ x, env.isCurrent x = true → c x = c env.current

end Verif.Filters
