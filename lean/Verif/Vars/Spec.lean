import Verif.Vars.Model
/-! What substituting variables means (CSS Custom Properties 1, section 3), independent of the code. -/
namespace Verif.Vars

/-- `Replaced vars a b`: `b` is `a` with every reference replaced: by the value of the variable if it has one, else by the fallback if there is one,
each with its own references replaced; a reference with neither stays. -/
inductive Replaced (vars : Vars) : List Val → List Val → Prop
  | nil : Replaced vars [] []
  | leaf {s ts us} : Replaced vars ts us → Replaced vars (.leaf s :: ts) (.leaf s :: us)
  | value {name fb v v' ts us} : vars name = some v → Replaced vars v v' → Replaced vars ts us → Replaced vars (.var name fb :: ts) (v' ++ us)
  | fallback {name f f' ts us} : vars name = none → Replaced vars f f' → Replaced vars ts us → Replaced vars (.var name (some f) :: ts) (f' ++ us)
  | unknown {name ts us} : vars name = none → Replaced vars ts us → Replaced vars (.var name none :: ts) (.var name none :: us)
  | wrap {l a a' ts us} : Replaced vars a a' → Replaced vars ts us → Replaced vars (.wrap l a :: ts) (.wrap l a' :: us)
  | two {l a a' b b' ts us} : Replaced vars a a' → Replaced vars b b' → Replaced vars ts us → Replaced vars (.two l a b :: ts) (.two l a' b' :: us)

/-- The list refers to the variable `n` somewhere, at any depth. -/
inductive Refers (n : Str) : List Val → Prop
  | here {fb ts} : Refers n (.var n fb :: ts)
  | later {t ts} : Refers n ts → Refers n (t :: ts)
  | fallback {m f ts} : Refers n f → Refers n (.var m (some f) :: ts)
  | wrap {l a ts} : Refers n a → Refers n (.wrap l a :: ts)
  | left {l a b ts} : Refers n a → Refers n (.two l a b :: ts)
  | right {l a b ts} : Refers n b → Refers n (.two l a b :: ts)

/-- No variable depends on itself: there is an order in which every value refers only to earlier variables. -/
def Acyclic (vars : Vars) : Prop := ∃ rank : Str → Nat, ∀ n v, vars n = some v → ∀ m, Refers m v → rank m < rank n

/-- There is an empty fallback somewhere in the list. -/
inductive EmptyFallback : List Val → Prop
  | here {m ts} : EmptyFallback (.var m (some []) :: ts)
  | later {t ts} : EmptyFallback ts → EmptyFallback (t :: ts)
  | fallback {m f ts} : EmptyFallback f → EmptyFallback (.var m (some f) :: ts)
  | wrap {l a ts} : EmptyFallback a → EmptyFallback (.wrap l a :: ts)
  | left {l a b ts} : EmptyFallback a → EmptyFallback (.two l a b :: ts)
  | right {l a b ts} : EmptyFallback b → EmptyFallback (.two l a b :: ts)

end Verif.Vars
