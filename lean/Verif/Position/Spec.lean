import Verif.Position.Model
import Verif.Transform.Spec
/-!
# What a position means (CSS Backgrounds 3, `<bg-position>`; CSS Values 4, `<position>`), written without the functions of the model

A position in a box is a pair of distances from its left and top edges. A percentage stands for a part of what is left of the box
when the positioned object is subtracted, which `env.width` and `env.height` give.
-/
namespace Verif.Position
open Transform (Env lengthPct)

/-- `<length-percentage>` along a line of the given size. -/
def IsLP (env : Env) (size : ℝ) : Tok → ℝ → Prop
  | .arg a, v => lengthPct env size a = some v
  | _, _ => False

/-- `left | center | right | <length-percentage>`. -/
def HVal (env : Env) (t : Tok) (x : ℝ) : Prop :=
  (t = .kw .left ∧ x = 0) ∨ (t = .kw .center ∧ x = env.width / 2) ∨ (t = .kw .right ∧ x = env.width) ∨ IsLP env env.width t x

/-- `top | center | bottom | <length-percentage>`. -/
def VVal (env : Env) (t : Tok) (y : ℝ) : Prop :=
  (t = .kw .top ∧ y = 0) ∨ (t = .kw .center ∧ y = env.height / 2) ∨ (t = .kw .bottom ∧ y = env.height) ∨ IsLP env env.height t y

/-- `center | [ left | right ] <length-percentage>?`. -/
inductive HGroup (env : Env) : List Tok → ℝ → Prop
  | center : HGroup env [.kw .center] (env.width / 2)
  | left : HGroup env [.kw .left] 0
  | right : HGroup env [.kw .right] env.width
  | fromLeft {t : Tok} {d : ℝ} : IsLP env env.width t d → HGroup env [.kw .left, t] d
  | fromRight {t : Tok} {d : ℝ} : IsLP env env.width t d → HGroup env [.kw .right, t] (env.width - d)

/-- `center | [ top | bottom ] <length-percentage>?`. -/
inductive VGroup (env : Env) : List Tok → ℝ → Prop
  | center : VGroup env [.kw .center] (env.height / 2)
  | top : VGroup env [.kw .top] 0
  | bottom : VGroup env [.kw .bottom] env.height
  | fromTop {t : Tok} {d : ℝ} : IsLP env env.height t d → VGroup env [.kw .top, t] d
  | fromBottom {t : Tok} {d : ℝ} : IsLP env env.height t d → VGroup env [.kw .bottom, t] (env.height - d)

/-- `ts` is a valid position, the point at `x` and `y`. -/
inductive IsPos (env : Env) : List Tok → ℝ → ℝ → Prop
  /-- one value: the other is `center` -/
  | one {t : Tok} {x : ℝ} : HVal env t x → IsPos env [t] x (env.height / 2)
  | oneTop : IsPos env [.kw .top] (env.width / 2) 0
  | oneBottom : IsPos env [.kw .bottom] (env.width / 2) env.height
  /-- two values, horizontal and vertical -/
  | two {t u : Tok} {x y : ℝ} : HVal env t x → VVal env u y → IsPos env [t, u] x y
  /-- two to four values: keywords with offsets, in any order -/
  | hv {ts us : List Tok} {x y : ℝ} : HGroup env ts x → VGroup env us y → IsPos env (ts ++ us) x y
  | vh {ts us : List Tok} {x y : ℝ} : HGroup env ts x → VGroup env us y → IsPos env (us ++ ts) x y

end Verif.Position
