import Verif.Size.Props
/-! # C122: examples and limits; C123: the values of the size properties -/
namespace Verif.Size
open Verif.Targets Spec

/-! ### C123 -/

namespace Spec
/-- The keywords of the sizing properties, in lower case (css-sizing-3, css-sizing-4, and the prefixed names of WebKit and Gecko). -/
def keywords {L : Type} (max : Bool) : List (Str × Sz L) := [
  (if max then cs!"none" else cs!"auto", .auto), (cs!"contain", .contain),
  (cs!"min-content", .kw .minContent .none), (cs!"-webkit-min-content", .kw .minContent .webkit), (cs!"-moz-min-content", .kw .minContent .moz),
  (cs!"max-content", .kw .maxContent .none), (cs!"-webkit-max-content", .kw .maxContent .webkit), (cs!"-moz-max-content", .kw .maxContent .moz),
  (cs!"fit-content", .kw .fitContent .none), (cs!"-webkit-fit-content", .kw .fitContent .webkit), (cs!"-moz-fit-content", .kw .fitContent .moz),
  (cs!"stretch", .kw .stretch .none), (cs!"-webkit-fill-available", .kw .stretch .webkit), (cs!"-moz-available", .kw .stretch .moz)]

/-- The grammar of the values. -/
inductive IsSize {L : Type} (max : Bool) : Tok L → Sz L → Prop
  | kw {s : Str} {v : Sz L} : (s.map Char.toLower, v) ∈ keywords max → IsSize max (.ident s) v
  | fit {n : Str} {l : L} : n.map Char.toLower = cs!"fit-content" → IsSize max (.func n l) (.fitFn l)
  | lp {l : L} : IsSize max (.lp l) (.lp l)
end Spec

section
variable {L : Type}

theorem ite_some {A : Type} {c : Prop} [Decidable c] {a v : A} {r : Option A} (h : (if c then some a else r) = some v) : (c ∧ a = v) ∨ r = some v := by
  by_cases hc : c
  · rw [if_pos hc] at h; cases h; exact .inl ⟨hc, rfl⟩
  · rw [if_neg hc] at h; exact .inr h

theorem keyword_spec (max : Bool) (s : Str) (v : Sz L) : keyword max s = some v ↔ (s.map Char.toLower, v) ∈ keywords max := by
  unfold keyword ci
  constructor
  · intro h
    generalize s.map Char.toLower = t at h ⊢
    generalize hn : (if max then cs!"none" else cs!"auto") = nm at h
    simp only [decide_eq_true_eq] at h
    rcases ite_some h with ⟨hs, rfl⟩ | h
    · rw [hs]; simp [keywords, ← hn]
    rcases ite_some h with ⟨hs, rfl⟩ | h
    · rw [hs]; simp [keywords]
    rcases ite_some h with ⟨hs, rfl⟩ | h
    · rw [hs]; simp [keywords]
    rcases ite_some h with ⟨hs, rfl⟩ | h
    · rw [hs]; simp [keywords]
    rcases ite_some h with ⟨hs, rfl⟩ | h
    · rw [hs]; simp [keywords]
    rcases ite_some h with ⟨hs, rfl⟩ | h
    · rw [hs]; simp [keywords]
    rcases ite_some h with ⟨hs, rfl⟩ | h
    · rw [hs]; simp [keywords]
    rcases ite_some h with ⟨hs, rfl⟩ | h
    · rw [hs]; simp [keywords]
    rcases ite_some h with ⟨hs, rfl⟩ | h
    · rw [hs]; simp [keywords]
    rcases ite_some h with ⟨hs, rfl⟩ | h
    · rw [hs]; simp [keywords]
    rcases ite_some h with ⟨hs, rfl⟩ | h
    · rw [hs]; simp [keywords]
    rcases ite_some h with ⟨hs, rfl⟩ | h
    · rw [hs]; simp [keywords]
    rcases ite_some h with ⟨hs, rfl⟩ | h
    · rw [hs]; simp [keywords]
    rcases ite_some h with ⟨hs, rfl⟩ | h
    · rw [hs]; simp [keywords]
    cases h
  · intro h
    generalize s.map Char.toLower = t at h ⊢
    simp only [keywords, List.mem_cons, List.not_mem_nil, or_false, Prod.mk.injEq] at h
    rcases h with ⟨rfl, rfl⟩ | ⟨rfl, rfl⟩ | ⟨rfl, rfl⟩ | ⟨rfl, rfl⟩ | ⟨rfl, rfl⟩ | ⟨rfl, rfl⟩ | ⟨rfl, rfl⟩ | ⟨rfl, rfl⟩ | ⟨rfl, rfl⟩ | ⟨rfl, rfl⟩ | ⟨rfl, rfl⟩ | ⟨rfl, rfl⟩ | ⟨rfl, rfl⟩ | ⟨rfl, rfl⟩ <;>
      cases max <;> rfl

/-- C123: exactly the values of the grammar are accepted. -/
theorem C123_parse (max : Bool) (t : Tok L) (v : Sz L) : Sz.parse max t = some v ↔ IsSize max t v := by
  constructor
  · intro h
    cases t with
    | ident s => exact .kw ((keyword_spec max s v).mp h)
    | func n l =>
      simp only [Sz.parse, ci, decide_eq_true_eq] at h
      split at h
      · cases h; rename_i hn; exact .fit hn
      · cases h
    | lp l => cases h; exact .lp
  · intro h
    cases h with
    | kw h => exact (keyword_spec max _ v).mpr h
    | fit h => simp [Sz.parse, ci, h]
    | lp => rfl

/-- C123: an accepted value is printed, without a panic, as a text that means the same. -/
theorem C123_print (max : Bool) (t : Tok L) (v : Sz L) (h : Sz.parse max t = some v) : ∃ t', v.print max = some t' ∧ IsSize max t' v := by
  rw [C123_parse] at h
  cases h with
  | fit h => exact ⟨_, rfl, .fit (by decide)⟩
  | lp => exact ⟨_, rfl, .lp⟩
  | kw h =>
    simp only [keywords, List.mem_cons, List.not_mem_nil, or_false, Prod.mk.injEq] at h
    rcases h with ⟨-, rfl⟩ | ⟨-, rfl⟩ | ⟨-, rfl⟩ | ⟨-, rfl⟩ | ⟨-, rfl⟩ | ⟨-, rfl⟩ | ⟨-, rfl⟩ | ⟨-, rfl⟩ | ⟨-, rfl⟩ | ⟨-, rfl⟩ | ⟨-, rfl⟩ | ⟨-, rfl⟩ | ⟨-, rfl⟩ | ⟨-, rfl⟩ <;>
      refine ⟨_, rfl, (keyword_spec max _ _).mp ?_ |> .kw⟩ <;> cases max <;> rfl

end

/-! ### C125: printing what the handler writes -/

section
variable {L : Type}

/-- A printed declaration: not a panic. -/
def Printable : Decl L → Prop
  | .size n v => (v.print (n.kind = .max)).isSome
  | .unparsed _ _ => True

theorem printable_of (v : Sz L) (h : ∀ p, v = .kw .stretch p → p = .none ∨ p = .webkit ∨ p = .moz) (max : Bool) : (v.print max).isSome := by
  cases v with
  | kw k p =>
    cases k with
    | stretch => rcases h p rfl with rfl | rfl | rfl <;> rfl
    | _ => rfl
  | _ => rfl

theorem stretch_rules : ∀ r ∈ PrefixFeature.stretch.rules, r.pre = .webkit ∨ r.pre = .moz := by decide

theorem stretch_prefixes (env : Env L) (hi : env.targets.incl.contains .vendorPrefixes = false) (p : Prefix)
    (h : (env.targets.prefixes Prefix.none.set .stretch).has p = true) : p = .none ∨ p = .webkit ∨ p = .moz := by
  unfold Targets.prefixes at h
  rw [hi] at h
  split at h
  · simp only [Bool.false_eq_true, if_false] at h
    split at h
    · rw [prefixesFor_has] at h
      rcases h with rfl | ⟨r, hr, -, e⟩
      · exact .inl rfl
      · rw [← e]; exact .inr (stretch_rules r hr)
    · cases p <;> simp [Prefix.set, PrefixSet.has] at h ⊢
  · cases p <;> simp [Prefix.set, PrefixSet.has] at h ⊢

theorem mem_flags {s : PrefixSet} {p : Prefix} (h : p ∈ flagsButNone s) : s.has p = true := by
  obtain ⟨a, b, c, d, e⟩ := s
  cases p <;> cases a <;> cases b <;> cases c <;> cases d <;> cases e <;> simp [flagsButNone, PrefixSet.has] at h ⊢

/-- The values of a state, pending and written, can be printed. -/
structure Good (st : Handler L × List (Decl L)) : Prop where
  pend : ∀ n v, st.1.pending n = some v → Printable (.size n v)
  out : ∀ d ∈ st.2, Printable d

theorem target_kind (env : Env L) (n : Name) : (env.target n).kind = n.kind := congrArg Prod.fst (slot_target env n)

theorem Good.flushOne {env : Env L} (hi : env.targets.incl.contains .vendorPrefixes = false) {st} (h : Good st) (n : Name) : Good (Size.flushOne env st n) := by
  unfold Size.flushOne
  cases hp : st.1.pending n with
  | none => exact h
  | some v =>
    refine ⟨?_, ?_⟩
    · intro k w hk
      simp only [put] at hk
      split at hk
      · cases hk
      · exact h.pend k w hk
    · intro d hd
      simp only [List.append_assoc, List.mem_append, List.mem_singleton] at hd
      rcases hd with hd | hd | rfl
      · exact h.out d hd
      · unfold prefixed at hd
        split at hd
        · rename_i k
          split at hd
          · cases hd
          · obtain ⟨p, hpm, rfl⟩ := List.mem_map.mp hd
            refine printable_of _ (fun q hq => ?_) _
            cases hq
            exact stretch_prefixes env hi p (mem_flags hpm)
        · cases hd
      · have := h.pend n v hp
        simp only [Printable, target_kind] at this ⊢
        exact this

theorem Good.flush {env : Env L} (hi : env.targets.incl.contains .vendorPrefixes = false) {st} (h : Good st) : Good (Size.flush env st) := by
  have : ∀ (l : List Name) (st : Handler L × List (Decl L)), Good st → Good (l.foldl (Size.flushOne env) st) := by
    intro l
    induction l with
    | nil => intro st h; exact h
    | cons n l ih => intro st h; exact ih _ (h.flushOne hi n)
  unfold Size.flush
  split
  · exact this _ _ ⟨h.pend, h.out⟩
  · exact h

/-- C125 if vendor prefixes are not forced by the option `include`: declarations that were read can be printed after minification, without a panic. -/
theorem C125_no_panic_partial (env : Env L) (hi : env.targets.incl.contains .vendorPrefixes = false) (h : Handler L) (hh : ∀ n, h.pending n = none)
    (ds : List (Decl L)) (hd : ∀ n v, Decl.size n v ∈ ds → ∃ t, Sz.parse (n.kind = .max) t = some v) : ∀ d ∈ (run env h ds).2, Printable d := by
  have step : ∀ st d, Good st → (∀ n v, d = Decl.size n v → ∃ t, Sz.parse (n.kind = .max) t = some v) → Good (Size.handle env st d) := by
    intro st d hg hd
    cases d with
    | size n v =>
      have key : Good (if n.cat ≠ st.1.category ∨ ((st.1.pending n).isSome ∧ env.incompatible v = true) then Size.flush env st else st) := by
        split
        · exact hg.flush hi
        · exact hg
      simp only [Size.handle]
      generalize (if n.cat ≠ st.1.category ∨ ((st.1.pending n).isSome ∧ env.incompatible v = true) then Size.flush env st else st) = st' at key
      refine ⟨?_, key.out⟩
      intro k w hk
      simp only [put] at hk
      split at hk
      · rename_i e
        cases hk
        subst e
        obtain ⟨t, ht⟩ := hd _ _ rfl
        obtain ⟨t', e', -⟩ := C123_print _ _ _ ht
        simp [Printable, e']
      · exact key.pend k w hk
    | unparsed n t =>
      have key := hg.flush hi
      simp only [Size.handle]
      refine ⟨key.pend, ?_⟩
      intro d hd
      simp only [List.mem_append, List.mem_singleton] at hd
      rcases hd with hd | rfl
      · exact key.out d hd
      · trivial
  have loop : ∀ (ds : List (Decl L)) st, Good st → (∀ n v, Decl.size n v ∈ ds → ∃ t, Sz.parse (n.kind = .max) t = some v) → Good (ds.foldl (Size.handle env) st) := by
    intro ds
    induction ds with
    | nil => intro st h _; exact h
    | cons d ds ih =>
      intro st h hd
      exact ih _ (step st d h fun n v e => hd n v (by rw [e]; exact .head _)) fun n v hm => hd n v (.tail _ hm)
  have hg := loop ds (h, []) ⟨fun n v hv => (by rw [hh n] at hv; cases hv), fun d hd => (by cases hd)⟩ hd
  exact (hg.flush hi).out

end

/-! ### Examples and limits -/

/-- Targets with a list of browsers, no lengths being a problem. -/
def envOf (l : List (Browser × Nat)) (incl : Flags := 0) : Env Nat := ⟨⟨some fun b => l.lookup b, incl, 0⟩, false, fun _ _ => true⟩

/-- The properties. -/
def width : Name := ⟨.physical, .size, .inline⟩
/-- The properties. -/
def height : Name := ⟨.physical, .size, .block⟩
/-- The properties. -/
def blockSize : Name := ⟨.logical, .size, .block⟩

/-- C125 fails with `include: VendorPrefixes`: `width: stretch` gets the prefixes `-ms-` and `-o-`, for which printing panics. -/
theorem C125_include_fails : ∃ d ∈ (run (envOf [] .vendorPrefixes) Handler.new [.size width (.kw .stretch .none)]).2, ¬Printable d :=
  ⟨.size width (.kw .stretch .o), by decide +kernel, by simp [Printable, Sz.print]⟩

/-- `width: 10px; width: stretch; height: 1px; min-height: var(--x)` for Chrome 50: no prefixed form is added, since the first declaration is the fallback. -/
example : (run (envOf [(.chrome, 3276800)]) Handler.new [.size width (.lp 10), .size width (.kw .stretch .none), .size height (.lp 1), .unparsed ⟨.logical, .min, .block⟩ cs!"var(--x)"]).2 =
    [.size width (.lp 10), .size width (.kw .stretch .none), .size height (.lp 1), .unparsed ⟨.physical, .min, .block⟩ cs!"var(--x)"] := by decide +kernel

/-- The hypotheses of C122 hold for it, with a browser that knows lengths and prefixed keywords. -/
example : NoMix (envOf [(.chrome, 3276800)]) [.size width (.lp 10), .size width (.kw .stretch .none), .size height (.lp 1)] ∧
    (∀ n v, Decl.size n v ∈ [.size width (.lp 10), .size width (.kw .stretch .none), .size height (.lp 1)] →
      (envOf [(.chrome, 3276800)]).incompatible v = false → (fun v : Sz Nat => match v with | .lp _ => true | .kw _ .webkit => true | _ => false) v = true) := by
  refine ⟨fun x hx y hy => ?_, fun n v hv => ?_⟩
  · simp only [List.mem_cons, List.not_mem_nil, or_false] at hx hy
    rcases hx with rfl | rfl | rfl <;> rcases hy with rfl | rfl | rfl <;> decide +kernel
  · simp only [List.mem_cons, List.not_mem_nil, or_false, Decl.size.injEq] at hv
    rcases hv with ⟨rfl, rfl⟩ | ⟨rfl, rfl⟩ | ⟨rfl, rfl⟩ <;> decide +kernel

/-- A browser that knows lengths and the keywords with `-moz-`, and has logical properties. -/
def gecko : Agent Nat := ⟨fun v => match v with | .lp _ => true | .kw _ .moz => true | _ => false, true⟩

/-- C122 fails for a dimension set under both names: in `height: 100px; block-size: stretch` for Firefox 50, the `-moz-available` that is added for `block-size` replaces the fallback. -/
theorem C122_mixed_fails : winner (gecko.seeing (envOf [(.firefox, 3276800)])) (.size, .block) [.size height (.lp 100), .size blockSize (.kw .stretch .none)] = some (.size (.lp 100)) ∧
    winner gecko (.size, .block) (run (envOf [(.firefox, 3276800)]) Handler.new [.size height (.lp 100), .size blockSize (.kw .stretch .none)]).2 = some (.size (.kw .stretch .none)) := by
  decide +kernel

/-- C122 fails for values that the targets support with a prefix only: in `width: 10px; width: -moz-available; width: min-content` for Firefox 50, the second declaration is dropped because the third one is taken to be supported, and the third one gets no prefix because there are earlier declarations. -/
theorem C122_prefixed_fails : winner (gecko.seeing (envOf [(.firefox, 3276800)])) (.size, .inline) [.size width (.lp 10), .size width (.kw .stretch .moz), .size width (.kw .minContent .none)] = some (.size (.kw .stretch .none)) ∧
    winner gecko (.size, .inline) (run (envOf [(.firefox, 3276800)]) Handler.new [.size width (.lp 10), .size width (.kw .stretch .moz), .size width (.kw .minContent .none)]).2 = some (.size (.lp 10)) := by
  decide +kernel

/-- C122 fails for a prefixed value after the unprefixed one: `width: min-content; width: -moz-min-content` for Chrome 100 and Firefox 100 becomes `width: -moz-min-content`, which Chrome does not have. -/
theorem C122_order_fails : ∃ b : Agent Nat, (∀ k, b.knows (.kw k .none) = true) ∧
    winner (b.seeing (envOf [(.chrome, 6553600), (.firefox, 6553600)])) (.size, .inline) [.size width (.kw .minContent .none), .size width (.kw .minContent .moz)] = some (.size (.kw .minContent .none)) ∧
    winner b (.size, .inline) (run (envOf [(.chrome, 6553600), (.firefox, 6553600)]) Handler.new [.size width (.kw .minContent .none), .size width (.kw .minContent .moz)]).2 = none :=
  ⟨⟨fun v => match v with | .kw _ .none => true | _ => false, true⟩, fun _ => rfl, by decide +kernel, by decide +kernel⟩

end Verif.Size
