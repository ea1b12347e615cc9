import Verif.Transition.Spec
/-! # C116, C117: easing functions and the value of `transition` -/
namespace Verif.Transition
open Spec

/-! ### Easing functions -/

/-- The curve of a parsed easing function. -/
def curve : Easing → Curve
  | .linear => .bezier ⟨0, 0⟩ ⟨0, 0⟩ ⟨1, 0⟩ ⟨1, 0⟩
  | .ease => .bezier ⟨25, 2⟩ ⟨1, 1⟩ ⟨25, 2⟩ ⟨1, 0⟩
  | .easeIn => .bezier ⟨42, 2⟩ ⟨0, 0⟩ ⟨1, 0⟩ ⟨1, 0⟩
  | .easeOut => .bezier ⟨0, 0⟩ ⟨0, 0⟩ ⟨58, 2⟩ ⟨1, 0⟩
  | .easeInOut => .bezier ⟨42, 2⟩ ⟨0, 0⟩ ⟨58, 2⟩ ⟨1, 0⟩
  | .bezier a b c d => .bezier a b c d
  | .steps n .start => .steps n .first
  | .steps n .stop => .steps n .last
  | .steps n .jumpNone => .steps n .neither
  | .steps n .jumpBoth => .steps n .both

theorem keyword_parse {s k : Str} {c : Curve} (hk : (k, c) ∈ keywords) (hs : word s k) : ∃ e, easingKeyword s = some e ∧ curve e = c := by
  simp only [keywords, List.mem_cons, Prod.mk.injEq, List.not_mem_nil, or_false] at hk
  simp only [word] at hs
  rcases hk with ⟨rfl, rfl⟩ | ⟨rfl, rfl⟩ | ⟨rfl, rfl⟩ | ⟨rfl, rfl⟩ | ⟨rfl, rfl⟩ | ⟨rfl, rfl⟩ | ⟨rfl, rfl⟩ <;>
    simp [easingKeyword, kw, hs, curve]

theorem jump_parse {s k : Str} {j : Jump} (hk : (k, j) ∈ jumps) (hs : word s k) (n : Int) : ∃ p, parseStepPos s = some p ∧ curve (.steps n p) = .steps n j := by
  simp only [jumps, List.mem_cons, Prod.mk.injEq, List.not_mem_nil, or_false] at hk
  simp only [word] at hs
  rcases hk with ⟨rfl, rfl⟩ | ⟨rfl, rfl⟩ | ⟨rfl, rfl⟩ | ⟨rfl, rfl⟩ | ⟨rfl, rfl⟩ | ⟨rfl, rfl⟩ <;>
    simp [parseStepPos, kw, hs, curve]

theorem isNum_number {a : Arg} {n : Num} (h : IsNum a n) : a.number = some n := by cases h <;> rfl
theorem number_isNum {a : Arg} {n : Num} (h : a.number = some n) : IsNum a n := by
  cases a <;> simp [Arg.number] at h <;> subst h <;> constructor

theorem parse_of_denotes {t : Text} {c : Curve} (h : Denotes t c) : ∃ e, Easing.parse t = some e ∧ curve e = c := by
  cases h with
  | keyword hk hs => exact keyword_parse hk hs
  | @bezier f a b c d x1 y1 x2 y2 hf ha hb hc hd =>
    refine ⟨.bezier x1 y1 x2 y2, ?_, rfl⟩
    simp only [word] at hf
    simp [Easing.parse, kw, hf, isNum_number ha, isNum_number hb, isNum_number hc, isNum_number hd]
  | steps hf => 
    simp only [word] at hf
    exact ⟨.steps _ .stop, by simp [Easing.parse, kw, hf], rfl⟩
  | stepsAt hf hk hs =>
    simp only [word] at hf
    obtain ⟨p, hp, hc⟩ := jump_parse hk hs _
    exact ⟨_, by simp [Easing.parse, kw, hf, hp], hc⟩

theorem parseStepPos_some {s : Str} {p : StepPos} (h : parseStepPos s = some p) (n : Int) : ∃ k j, (k, j) ∈ jumps ∧ word s k ∧ curve (.steps n p) = .steps n j := by
  unfold parseStepPos kw at h
  split at h
  · rename_i e; simp at e h; subst h; exact ⟨_, _, .tail _ (.head _), e, rfl⟩
  split at h
  · rename_i e; simp at e h; subst h; exact ⟨_, _, .tail _ (.tail _ (.tail _ (.head _))), e, rfl⟩
  split at h
  · rename_i e; simp at e h; subst h; exact ⟨_, _, .head _, e, rfl⟩
  split at h
  · rename_i e; simp at e h; subst h; exact ⟨_, _, .tail _ (.tail _ (.head _)), e, rfl⟩
  split at h
  · rename_i e; simp at e h; subst h; exact ⟨_, _, .tail _ (.tail _ (.tail _ (.tail _ (.head _)))), e, rfl⟩
  split at h
  · rename_i e; simp at e h; subst h; exact ⟨_, _, .tail _ (.tail _ (.tail _ (.tail _ (.tail _ (.head _))))), e, rfl⟩
  · simp at h

theorem easingKeyword_some {s : Str} {e : Easing} (h : easingKeyword s = some e) : ∃ k, (k, curve e) ∈ keywords ∧ word s k := by
  unfold easingKeyword kw at h
  split at h
  · rename_i e'; simp at e' h; subst h; exact ⟨_, .head _, e'⟩
  split at h
  · rename_i e'; simp at e' h; subst h; exact ⟨_, .tail _ (.head _), e'⟩
  split at h
  · rename_i e'; simp at e' h; subst h; exact ⟨_, .tail _ (.tail _ (.head _)), e'⟩
  split at h
  · rename_i e'; simp at e' h; subst h; exact ⟨_, .tail _ (.tail _ (.tail _ (.head _))), e'⟩
  split at h
  · rename_i e'; simp at e' h; subst h; exact ⟨_, .tail _ (.tail _ (.tail _ (.tail _ (.head _)))), e'⟩
  split at h
  · rename_i e'; simp at e' h; subst h; exact ⟨_, .tail _ (.tail _ (.tail _ (.tail _ (.tail _ (.head _))))), e'⟩
  split at h
  · rename_i e'; simp at e' h; subst h; exact ⟨_, .tail _ (.tail _ (.tail _ (.tail _ (.tail _ (.tail _ (.head _)))))), e'⟩
  · simp at h

theorem denotes_of_parse {t : Text} {e : Easing} (h : Easing.parse t = some e) : Denotes t (curve e) := by
  cases t with
  | ident s =>
    obtain ⟨k, hk, hs⟩ := easingKeyword_some h
    exact .keyword hk hs
  | func f args =>
    simp only [Easing.parse] at h
    split at h
    · rename_i hf
      simp only [kw, decide_eq_true_eq] at hf
      split at h
      · rename_i a b c d
        split at h
        · rename_i h1 h2 h3 h4
          injection h with h; subst h
          exact .bezier hf (number_isNum h1) (number_isNum h2) (number_isNum h3) (number_isNum h4)
        · simp at h
      · simp at h
    · split at h
      · rename_i hf
        simp only [kw, decide_eq_true_eq] at hf
        split at h
        · injection h with h; subst h; exact .steps hf
        · rename_i n p
          cases hp : parseStepPos p with
          | none => simp [hp] at h
          | some q =>
            simp only [hp, Option.map_some, Option.some.injEq] at h; subst h
            obtain ⟨k, j, hk, hs, hc⟩ := parseStepPos_some hp n
            rw [hc]; exact .stepsAt hf hk hs
        · simp at h
      · simp at h

theorem isNum_arg (n : Num) : IsNum n.arg n := by
  obtain ⟨m, s⟩ := n
  unfold Num.arg
  split
  · rename_i h; simp only at h; subst h; exact .int m
  · exact .num _

theorem denotes_print (e : Easing) : Denotes e.print (curve e) := by
  cases e with
  | linear => exact .keyword (.head _) rfl
  | ease => exact .keyword (.tail _ (.head _)) rfl
  | easeIn => exact .keyword (.tail _ (.tail _ (.head _))) rfl
  | easeOut => exact .keyword (.tail _ (.tail _ (.tail _ (.head _)))) rfl
  | easeInOut => exact .keyword (.tail _ (.tail _ (.tail _ (.tail _ (.head _))))) rfl
  | bezier a b c d =>
    simp only [Easing.print]
    split
    · rename_i h
      simp [Easing.isEase] at h
      obtain ⟨rfl, rfl, rfl, rfl⟩ := h
      exact .keyword (.tail _ (.head _)) rfl
    split
    · rename_i h; injection h with h1 h2 h3 h4; subst h1 h2 h3 h4
      exact .keyword (.tail _ (.tail _ (.head _))) rfl
    split
    · rename_i h; injection h with h1 h2 h3 h4; subst h1 h2 h3 h4
      exact .keyword (.tail _ (.tail _ (.tail _ (.head _)))) rfl
    split
    · rename_i h; injection h with h1 h2 h3 h4; subst h1 h2 h3 h4
      exact .keyword (.tail _ (.tail _ (.tail _ (.tail _ (.head _))))) rfl
    · exact .bezier rfl (isNum_arg _) (isNum_arg _) (isNum_arg _) (isNum_arg _)
  | steps n p =>
    have general : Denotes (.func cs!"steps" [.int n, .ident p.text]) (curve (.steps n p)) := by
      cases p with
      | start => exact .stepsAt rfl (.tail _ (.head _)) rfl
      | stop => exact .stepsAt rfl (.tail _ (.tail _ (.tail _ (.head _)))) rfl
      | jumpNone => exact .stepsAt rfl (.tail _ (.tail _ (.tail _ (.tail _ (.head _))))) rfl
      | jumpBoth => exact .stepsAt rfl (.tail _ (.tail _ (.tail _ (.tail _ (.tail _ (.head _)))))) rfl
    unfold Easing.print
    split <;> try (rename_i h; cases h)
    · exact .keyword (.tail _ (.tail _ (.tail _ (.tail _ (.tail _ (.head _)))))) rfl
    · exact .keyword (.tail _ (.tail _ (.tail _ (.tail _ (.tail _ (.tail _ (.head _))))))) rfl
    · exact general

/-- C116: an easing function that CSS accepts is accepted, and it is written as an easing function with the same timing curve, and only with that one. -/
theorem C116_curve (t : Text) (c : Curve) (h : Denotes t c) : ∃ e, Easing.parse t = some e ∧ ∀ c', Denotes e.print c' ↔ c' = c := by
  obtain ⟨e, he, hc⟩ := parse_of_denotes h
  refine ⟨e, he, fun c' => ⟨fun hd => ?_, fun hd => hd ▸ hc ▸ denotes_print e⟩⟩
  obtain ⟨e1, h1, hc1⟩ := parse_of_denotes (denotes_print e)
  obtain ⟨e2, h2, hc2⟩ := parse_of_denotes hd
  rw [h1] at h2; injection h2 with h2; subst h2
  exact hc2.symm.trans (hc1.trans hc)

/-- C116: nothing else is accepted (beyond the ranges of the numbers, which the code does not check). -/
theorem C116_accepts (t : Text) : (Easing.parse t).isSome ↔ ∃ c, Denotes t c := by
  constructor
  · intro h
    obtain ⟨e, he⟩ := Option.isSome_iff_exists.mp h
    exact ⟨_, denotes_of_parse he⟩
  · rintro ⟨c, h⟩
    obtain ⟨e, he, _⟩ := parse_of_denotes h
    simp [he]

/-- C116: `is_ease`, which decides whether the easing function of a transition may be left out, holds exactly for the curve of `ease`. -/
theorem C116_isEase (e : Easing) : e.isEase = true ↔ Denotes e.print (.bezier ⟨25, 2⟩ ⟨1, 1⟩ ⟨25, 2⟩ ⟨1, 0⟩) := by
  have key : Denotes e.print (.bezier ⟨25, 2⟩ ⟨1, 1⟩ ⟨25, 2⟩ ⟨1, 0⟩) ↔ curve e = .bezier ⟨25, 2⟩ ⟨1, 1⟩ ⟨25, 2⟩ ⟨1, 0⟩ := by
    constructor
    · intro h
      obtain ⟨e1, h1, hc1⟩ := parse_of_denotes (denotes_print e)
      obtain ⟨e2, h2, hc2⟩ := parse_of_denotes h
      rw [h1] at h2; injection h2 with h2; subst h2
      exact hc1.symm.trans hc2
    · intro h; rw [← h]; exact denotes_print e
  rw [key]
  cases e with
  | steps n p => cases p <;> simp [Easing.isEase, curve]
  | _ => simp [Easing.isEase, curve, dec]

example : Denotes (.func cs!"cubic-bezier" [.num ⟨25, 2⟩, .num ⟨1, 1⟩, .num ⟨25, 2⟩, .int 1]) (.bezier ⟨25, 2⟩ ⟨1, 1⟩ ⟨25, 2⟩ ⟨1, 0⟩) :=
  .bezier rfl (.num _) (.num _) (.num _) (.int _)
example : (Easing.parse (.func cs!"cubic-bezier" [.num ⟨25, 2⟩, .num ⟨1, 1⟩, .num ⟨25, 2⟩, .int 1])).map Easing.print = some (.ident cs!"ease") := by decide
example : (Easing.parse (.func cs!"STEPS" [.int 1, .ident cs!"jump-start"])).map Easing.print = some (.ident cs!"step-start") := by decide
example : (Easing.parse (.func cs!"steps" [.int 3])).map Easing.print = some (.func cs!"steps" [.int 3, .ident cs!"end"]) := by decide

/-! ### One transition of the shorthand -/

section
variable {T : Type} [Zero T] [DecidableEq T]

omit [Zero T] [DecidableEq T] in
theorem step_time (s : Slots T) (t : T) : s.step (.time t) =
    if s.duration.isNone then some { s with duration := some t } else if s.delay.isNone then some { s with delay := some t } else none := by
  obtain ⟨p, d, dl, tm⟩ := s
  cases d <;> cases dl <;> simp [Slots.step, Comp.asTime, Comp.asEasing, Comp.asName]

omit [Zero T] [DecidableEq T] in
theorem step_text (s : Slots T) (e : Text) : s.step (.text e) =
    match (if s.timing.isNone then Easing.parse e else none) with
    | some v => some { s with timing := some v }
    | none => match e with
      | .ident n => if s.property.isNone then some { s with property := some n } else none
      | .func _ _ => none := by
  obtain ⟨p, d, dl, tm⟩ := s
  simp only [Slots.step, Comp.asTime, Comp.asEasing, ite_self]
  cases hq : (if tm.isNone = true then Easing.parse e else none) with
  | some v => rfl
  | none => cases e <;> cases p <;> simp [Comp.asName]

/-- The times alone. -/
def timeLoop (d dl : Option T) : List T → Option (Option T × Option T)
  | [] => some (d, dl)
  | t :: ts => if d.isNone then timeLoop (some t) dl ts else if dl.isNone then timeLoop d (some t) ts else none

/-- The identifiers and functions alone. -/
def textLoop (p : Option Str) (tm : Option Easing) : List Text → Option (Option Str × Option Easing)
  | [] => some (p, tm)
  | e :: es => match (if tm.isNone then Easing.parse e else none) with
    | some v => textLoop p (some v) es
    | none => match e with
      | .ident n => if p.isNone then textLoop (some n) tm es else none
      | .func _ _ => none

theorem textLoop_cons (p : Option Str) (tm : Option Easing) (e : Text) (es : List Text) : textLoop p tm (e :: es) =
    match (if tm.isNone then Easing.parse e else none) with
    | some v => textLoop p (some v) es
    | none => match e with
      | .ident n => if p.isNone then textLoop (some n) tm es else none
      | .func _ _ => none := by
  rw [textLoop.eq_def]

omit [Zero T] [DecidableEq T] in
theorem loop_eq (cs : List (Comp T)) : ∀ s : Slots T, s.loop cs =
    match timeLoop s.duration s.delay (times cs), textLoop s.property s.timing (texts cs) with
    | some (d, dl), some (p, tm) => some ⟨p, d, dl, tm⟩
    | _, _ => none := by
  induction cs with
  | nil => intro s; simp [Slots.loop, times, texts, timeLoop, textLoop]
  | cons c cs ih =>
    intro s
    cases c with
    | time t =>
      have e1 : times (.time t :: cs) = t :: times cs := rfl
      have e2 : texts (.time t :: cs) = texts cs := rfl
      rw [Slots.loop, step_time, e1, e2, timeLoop]
      by_cases h1 : s.duration.isNone
      · simp only [h1, if_true, ih]
      · by_cases h2 : s.delay.isNone
        · simp only [h1, h2, if_true, ih]; rfl
        · simp [h1, h2]
    | text e =>
      have e1 : times (.text e :: cs) = times cs := rfl
      have e2 : texts (.text e :: cs) = e :: texts cs := rfl
      rw [Slots.loop, step_text, e1, e2, textLoop_cons]
      cases hq : (if s.timing.isNone = true then Easing.parse e else none) with
      | some v => simp only [ih]
      | none =>
        cases e with
        | ident n =>
          by_cases h1 : s.property.isNone
          · simp only [h1, if_true, ih]
          · simp [h1]
        | func f a => simp

omit [DecidableEq T] in
theorem timeLoop_iff (ts : List T) (d dl : T) :
    ((timeLoop none none ts).map fun x => (x.1.getD 0, x.2.getD 0)) = some (d, dl) ↔ Times ts d dl := by
  constructor
  · intro h
    match ts with
    | [] => simp [timeLoop] at h; obtain ⟨rfl, rfl⟩ := h; exact .none
    | [a] => simp [timeLoop] at h; obtain ⟨rfl, rfl⟩ := h; exact .one _
    | [a, b] => simp [timeLoop] at h; obtain ⟨rfl, rfl⟩ := h; exact .two _ _
    | a :: b :: c :: r => simp [timeLoop] at h
  · intro h
    cases h <;> simp [timeLoop]

theorem parse_none_iff {t : Text} : Easing.parse t = none ↔ ∀ c, ¬Denotes t c := by
  rw [← Option.not_isSome_iff_eq_none, C116_accepts]; simp

theorem textLoop_some_some (p : Str) (e : Easing) (ts : List Text) (r) (h : textLoop (some p) (some e) ts = some r) : ts = [] ∧ r = (some p, some e) := by
  match ts with
  | [] => simp [textLoop] at h; exact ⟨rfl, h.symm⟩
  | .ident n :: r => simp [textLoop] at h
  | .func f a :: r => simp [textLoop] at h

theorem textLoop_sound (ts : List Text) (p : Option Str) (e : Option Easing) (h : textLoop none none ts = some (p, e)) :
    Texts ts (p.getD cs!"all") (curve (e.getD .ease)) := by
  match ts with
  | [] => simp [textLoop] at h; obtain ⟨rfl, rfl⟩ := h; exact .none
  | t :: ts =>
    rw [textLoop_cons] at h
    simp only [Option.isNone_none, if_true] at h
    cases hp : Easing.parse t with
    | some v =>
      simp only [hp] at h
      match ts with
      | [] => simp [textLoop] at h; obtain ⟨rfl, rfl⟩ := h; exact .easing (denotes_of_parse hp)
      | .ident n :: ts =>
        simp [textLoop] at h
        obtain ⟨rfl, h2⟩ := textLoop_some_some _ _ _ _ h
        cases h2
        exact .easingName (denotes_of_parse hp)
      | .func f a :: ts => simp [textLoop] at h
    | none =>
      simp only [hp] at h
      match t with
      | .func f a => simp at h
      | .ident n =>
        simp at h
        match ts with
        | [] => simp [textLoop] at h; obtain ⟨rfl, rfl⟩ := h; exact .name (parse_none_iff.mp hp)
        | t :: ts =>
          rw [textLoop_cons] at h
          simp only [Option.isNone_none, if_true] at h
          cases hp' : Easing.parse t with
          | some v =>
            simp only [hp'] at h
            obtain ⟨rfl, h2⟩ := textLoop_some_some _ _ _ _ h
            cases h2
            exact .nameEasing (parse_none_iff.mp hp) (denotes_of_parse hp')
          | none => simp only [hp'] at h; cases t <;> simp at h

theorem textLoop_complete {ts : List Text} {n : Str} {c : Curve} (h : Texts ts n c) :
    ∃ p e, textLoop none none ts = some (p, e) ∧ p.getD cs!"all" = n ∧ curve (e.getD .ease) = c := by
  cases h with
  | none => exact ⟨_, _, rfl, rfl, rfl⟩
  | easing h =>
    obtain ⟨e, he, hc⟩ := parse_of_denotes h
    exact ⟨none, some e, by simp [textLoop, he], rfl, hc⟩
  | name h =>
    exact ⟨some n, none, by simp [textLoop, parse_none_iff.mpr h], rfl, rfl⟩
  | easingName h =>
    obtain ⟨e, he, hc⟩ := parse_of_denotes h
    exact ⟨some n, some e, by simp [textLoop, he], rfl, hc⟩
  | nameEasing h h' =>
    obtain ⟨e, he, hc⟩ := parse_of_denotes h'
    exact ⟨some n, some e, by simp [textLoop, parse_none_iff.mpr h, he], rfl, hc⟩

omit [DecidableEq T] in
theorem C117_sound {cs : List (Comp T)} {s : Single T} (h : Single.parse cs = some s) : Means cs s.property s.duration s.delay (curve s.timing) := by
  unfold Single.parse at h
  rw [loop_eq] at h
  cases h1 : timeLoop (none : Option T) none (times cs) with
  | none => simp [h1] at h
  | some x =>
    obtain ⟨d, dl⟩ := x
    cases h2 : textLoop none none (texts cs) with
    | none => simp [h1, h2] at h
    | some y =>
      obtain ⟨p, tm⟩ := y
      simp [h1, h2] at h
      subst h
      exact ⟨(timeLoop_iff _ _ _).mp (by simp [h1]), textLoop_sound _ _ _ h2⟩

omit [DecidableEq T] in
/-- C117: a single transition is accepted exactly if it has at most two times, at most one easing function and at most one property name; the first time is the duration and the second the delay, and what is missing has its initial value. -/
theorem C117_read (cs : List (Comp T)) (n : Str) (d dl : T) (c : Curve) :
    Means cs n d dl c ↔ ∃ s, Single.parse cs = some s ∧ s.property = n ∧ s.duration = d ∧ s.delay = dl ∧ Denotes s.timing.print c := by
  constructor
  · rintro ⟨h1, h2⟩
    obtain ⟨p, e, h2, hp, hc⟩ := textLoop_complete h2
    have h1 := (timeLoop_iff _ _ _).mpr h1
    cases h3 : timeLoop (none : Option T) none (times cs) with
    | none => simp [h3] at h1
    | some x =>
      obtain ⟨d', dl'⟩ := x
      simp only [h3, Option.map_some, Option.some.injEq, Prod.mk.injEq] at h1
      refine ⟨⟨p.getD cs!"all", d'.getD 0, dl'.getD 0, e.getD .ease⟩, ?_, hp, h1.1, h1.2, ?_⟩
      · unfold Single.parse; rw [loop_eq]; simp [h3, h2]
      · simp only; rw [← hc]; exact denotes_print _
  · rintro ⟨s, h, rfl, rfl, rfl, hd⟩
    have := C117_sound h
    obtain ⟨e1, h1, hc1⟩ := parse_of_denotes (denotes_print s.timing)
    obtain ⟨e2, h2, hc2⟩ := parse_of_denotes hd
    rw [h1] at h2; injection h2 with h2; subst h2
    rw [← hc2, hc1]; exact this

/-- C117 for a property that is not named like an easing function: a transition is written with the meaning that it was read with. -/
theorem C117_print_partial (cs : List (Comp T)) (n : Str) (d dl : T) (c : Curve) (h : Means cs n d dl c)
    (hn : ∀ c, ¬Denotes (.ident n) c) : ∃ s, Single.parse cs = some s ∧ Means s.print n d dl c := by
  obtain ⟨s, hs, rfl, rfl, rfl, hd⟩ := (C117_read cs n d dl c).mp h
  refine ⟨s, hs, ?_, ?_⟩
  · have e : times s.print = (if s.duration ≠ 0 ∨ s.delay ≠ 0 then [s.duration] else []) ++ (if s.delay ≠ 0 then [s.delay] else []) := by
      unfold Single.print times
      split <;> split <;> split <;> simp
    rw [e]
    by_cases h1 : s.delay = 0
    · by_cases h2 : s.duration = 0
      · simp [h1, h2]; exact .none
      · simp [h1, h2]; exact .one _
    · simp [h1]; exact .two _ _
  · have e : texts s.print = .ident s.property :: (if s.timing.isEase then [] else [s.timing.print]) := by
      unfold Single.print texts
      split <;> split <;> split <;> simp
    rw [e]
    split
    · rename_i he
      have := (C116_isEase _).mp he
      obtain ⟨e1, h1, hc1⟩ := parse_of_denotes this
      obtain ⟨e2, h2, hc2⟩ := parse_of_denotes hd
      rw [h1] at h2; injection h2 with h2; subst h2
      rw [← hc2, hc1]; exact .name hn
    · exact .nameEasing hn hd

/-- C117 fails for a property that is named like an easing function: in `transition: ease-in linear`, `linear` is the property; the output `linear ease-in` has the two exchanged. -/
theorem C117_print_fails : ∃ (cs : List (Comp Nat)) (s : Single Nat), Single.parse cs = some s ∧
    Single.parse s.print = some ⟨cs!"ease-in", 0, 0, .linear⟩ ∧ s = ⟨cs!"linear", 0, 0, .easeIn⟩ :=
  ⟨[.text (.ident cs!"ease-in"), .text (.ident cs!"linear")], _, by decide, by decide, rfl⟩

omit [DecidableEq T] in
/-- C117: the meaning is unique. -/
theorem C117_unique (cs : List (Comp T)) (n n' : Str) (d d' dl dl' : T) (c c' : Curve) (h : Means cs n d dl c) (h' : Means cs n' d' dl' c') :
    n = n' ∧ d = d' ∧ dl = dl' ∧ c = c' := by
  obtain ⟨s, hs, rfl, rfl, rfl, hd⟩ := (C117_read ..).mp h
  obtain ⟨s', hs', rfl, rfl, rfl, hd'⟩ := (C117_read ..).mp h'
  rw [hs] at hs'; injection hs' with hs'; subst hs'
  obtain ⟨e1, h1, hc1⟩ := parse_of_denotes hd
  obtain ⟨e2, h2, hc2⟩ := parse_of_denotes hd'
  rw [h1] at h2; injection h2 with h2; subst h2
  exact ⟨rfl, rfl, rfl, hc1.symm.trans hc2⟩

end

example : Means [.time 0, .text (.ident cs!"opacity"), .time 2] cs!"opacity" (0 : Nat) 2 (.bezier ⟨25, 2⟩ ⟨1, 1⟩ ⟨25, 2⟩ ⟨1, 0⟩) :=
  ⟨.two _ _, .name (parse_none_iff.mp (by decide))⟩
example : (Single.parse [.time (0 : Nat), .text (.ident cs!"opacity"), .time 2]).map Single.print =
    some [.text (.ident cs!"opacity"), .time 0, .time 2] := by decide

end Verif.Transition
