import Verif.Declarations.ShortLemmas
/-! Property theorems for `DeclarationBlock::get`, `set` and `remove` (src/declaration.rs:326-456). -/
namespace Verif.Declarations
open Verif.Targets
variable {V : Type} [DecidableEq V]

/-- An unprefixed property without vendor prefix support. -/
def plain (p : Pr) : Id := ⟨.pr p, none⟩
/-- A property with prefix support, unprefixed. -/
def unpre (p : Pr) : Id := ⟨.pr p, some Prefix.none.set⟩

/-- Numbers as values, lists of length one. -/
abbrev B := Block Nat
/-- `get` on such blocks, without extra validity conditions. -/
abbrev B.get (b : B) (q : Id) : Option (Decl Nat × Bool) := Block.get (fun _ => 1) (fun _ _ => true) b q

/-! ## C17: get after set -/

/-- **C17** (longhands) After `set`, `get` returns exactly what was set. Missing: (1) a normal longhand under an important
shorthand that covers it, (2) a block that holds a shorthand covering the longhand that `set_longhand` refuses to
update (`border`, list shorthands of another length, an unparsed new value); the counterexamples are below. -/
theorem C17_get_after_set_partial (len : V → Nat) (valid : Pr → List V → Bool) (b : Block V) (hb : b.WF) (p : Decl V)
    (hp : p.id.sh = none) (imp : Bool)
    (h1 : imp = false → ∀ d ∈ b.imps, d.longhand p.id = none)
    (h2 : ∀ d ∈ (if imp then b.imps else b.decls), d.longhand p.id ≠ none → d.setLonghand len p ≠ none) :
    (b.set len p imp).get len valid p.id = some (p, imp) := by
  rw [get_long len valid _ _ hp]
  cases imp with
  | true =>
    simp only [Block.set, if_true] at h2 ⊢
    rw [look_setList len p b.imps (fun d hd => hb d (by simp [hd])) h2 hp]
  | false =>
    simp only [Block.set, Bool.false_eq_true, if_false] at h2 ⊢
    rw [look_none p.id, look_setList len p b.decls (fun d hd => hb d (by simp [hd])) h2 hp]
    · rfl
    · intro d hd
      simp at hd
      simp [Decl.provides, hd.2, h1 rfl d hd.1]

/-- **C17** (frame) Setting a property changes no longhand that is neither that property nor covered by it, in any block. -/
theorem C17_frame (len : V → Nat) (valid : Pr → List V → Bool) (b : Block V) (p : Decl V) (imp : Bool) (q : Id)
    (hq : q.sh = none) (hn : q.name ≠ p.id.name) (hc : ¬ p.id.covers q) :
    (b.set len p imp).get len valid q = b.get len valid q := by
  have hf : ∀ d : Decl V, d.id = p.id → d.provides q = none := fun d hd =>
    provides_unrelated d q (by rw [hd]; exact hn) (by rw [hd]; exact hc)
  rw [get_long len valid _ _ hq, get_long len valid _ _ hq]
  cases imp with
  | true =>
    simp only [Block.set, if_true]
    rw [look_setList_frame len p q hq hn hc, look_filter q p.id hf]
  | false =>
    simp only [Block.set, Bool.false_eq_true, if_false]
    rw [look_setList_frame len p q hq hn hc, look_filter q p.id hf]

/-- **C17** (shorthands) After setting a shorthand (not a list shorthand) in a block where no other declaration touches its
longhands, `get` returns what was set. Missing: blocks with such declarations, and list shorthands, where the code is
wrong (counterexamples below). -/
theorem C17_shorthand_partial (len : V → Nat) (valid : Pr → List V → Bool) (b : Block V) (hb : b.WF) (p : Pr) (info : ShInfo)
    (hp : p.sh = some info) (hl : info.isList = false) (q : Id) (hq : q.WF) (hqn : q.name = .pr p) (fs : List V)
    (hfs : fs.length = info.groups.length) (hv : valid p fs = true) (imp : Bool)
    (hu : ∀ d ∈ b.decls ++ b.imps, d.id = q ∨ Unrelated p info d.id) :
    (b.set len (.short q fs) imp).get len valid q = some (.short q fs, imp) := by
  rw [get_short len valid _ q p info hqn hp]
  suffices h : ∃ x y, (b.set len (.short q fs) imp).iter = x ++ (.short q fs, imp) :: y ∧ (∀ d ∈ x, d.1.WF) ∧
      (∀ d ∈ x, Unrelated p info d.1.id ∨ (d.1.id = q ∧ d.2 = imp)) ∧ ∀ d ∈ y, Unrelated p info d.1.id by
    obtain ⟨x, y, h1, h2, h3, h4⟩ := h
    rw [fromLonghands_last len valid p info hp hl q hq hqn _ fs hfs hv imp x y h1 h2 h3 h4]
    rfl
  cases imp with
  | true =>
    obtain ⟨x, y, h1, h2, h3⟩ := setList_short len q fs b.imps
    refine ⟨(b.decls.filter fun d => d.id ≠ q).map (·, false) ++ x.map (·, true), y.map (·, true), ?_, ?_, ?_, ?_⟩
    · simp only [Block.set, if_true, Block.iter, h1, List.map_append, List.map_cons, List.append_assoc]
      rfl
    · intro d hd
      simp at hd
      rcases hd with ⟨a, ha, rfl⟩ | ⟨a, ha, rfl⟩
      · exact hb a (by simp [ha.1])
      · exact hb a (by simp [h2 a ha])
    · intro d hd
      simp at hd
      rcases hd with ⟨a, ha, rfl⟩ | ⟨a, ha, rfl⟩
      · exact .inl ((hu a (by simp [ha.1])).resolve_left ha.2)
      · rcases hu a (by simp [h2 a ha]) with h | h
        · exact .inr ⟨h, rfl⟩
        · exact .inl h
    · intro d hd
      simp at hd
      obtain ⟨a, ha, rfl⟩ := hd
      exact (hu a (by simp [(h3 a ha).1])).resolve_left (h3 a ha).2
  | false =>
    obtain ⟨x, y, h1, h2, h3⟩ := setList_short len q fs b.decls
    refine ⟨x.map (·, false), y.map (·, false) ++ (b.imps.filter fun d => d.id ≠ q).map (·, true), ?_, ?_, ?_, ?_⟩
    · simp only [Block.set, Bool.false_eq_true, if_false, Block.iter, h1, List.map_append, List.map_cons, List.append_assoc,
        List.cons_append]
      rfl
    · intro d hd
      simp at hd
      obtain ⟨a, ha, rfl⟩ := hd
      exact hb a (by simp [h2 a ha])
    · intro d hd
      simp at hd
      obtain ⟨a, ha, rfl⟩ := hd
      rcases hu a (by simp [h2 a ha]) with h | h
      · exact .inr ⟨h, rfl⟩
      · exact .inl h
    · intro d hd
      simp at hd
      rcases hd with ⟨a, ha, rfl⟩ | ⟨a, ha, rfl⟩
      · exact (hu a (by simp [(h3 a ha).1])).resolve_left (h3 a ha).2
      · exact (hu a (by simp [ha.1])).resolve_left ha.2

omit [DecidableEq V] in
theorem Unrelated_plain (p : Pr) (info : ShInfo) (x : Pr) (hx : x.sh = none) (h : x ≠ p) (hm : x ∉ info.groups.flatten) (vp : Option PrefixSet) :
    Unrelated p info ⟨.pr x, vp⟩ := by
  refine ⟨by simpa using h, fun m hm' vp' => ⟨?_, ?_⟩⟩
  · intro he
    injection he with he
    exact hm (he ▸ hm')
  · rintro ⟨i, _, hi, _⟩
    simp [Id.sh, hx] at hi

/-- `color: 1; margin: 2 3 4 5; margin-top: 6 !important`. -/
def sample : B := ⟨[.long (plain .color) 1, .short (plain .margin) [2, 3, 4, 5]], [.long (plain .marginTop) 6]⟩

theorem sample_wf : sample.WF := by
  intro d hd
  simp [sample] at hd
  rcases hd with rfl | rfl | rfl
  · exact ⟨⟨by decide, rfl⟩, by decide⟩
  · exact ⟨⟨by decide, rfl⟩, _, rfl, by decide⟩
  · exact ⟨⟨by decide, rfl⟩, by decide⟩

/-- The hypotheses of `C17_get_after_set_partial` are met when a longhand is updated inside its shorthand. -/
example : B.get (sample.set (fun _ => 1) (.long (plain .marginLeft) 9) false) (plain .marginLeft) =
    some (.long (plain .marginLeft) 9, false) := by
  refine C17_get_after_set_partial _ _ sample sample_wf (.long (plain .marginLeft) 9) (by decide) false (fun _ => ?_) ?_
  · intro d hd; simp [sample] at hd; subst hd; rfl
  · intro d hd
    simp [sample] at hd
    rcases hd with rfl | rfl
    · intro h; exact absurd rfl h
    · intro _; decide

example : Block.get (fun _ => 1) (fun _ _ => true) (Block.set (fun _ => 1) (⟨[.long (plain .color) 1], [.unparsed (plain .margin) 7]⟩ : B)
    (.short (plain .margin) [1, 2, 3, 4]) true) (plain .margin) = some (.short (plain .margin) [1, 2, 3, 4], true) := by
  refine C17_shorthand_partial _ (fun _ _ => true) _ ?_ .margin _ rfl rfl (plain .margin) ⟨by decide, rfl⟩ rfl ([1, 2, 3, 4] : List Nat) rfl rfl true ?_
  · intro d hd
    simp at hd
    rcases hd with rfl | rfl
    · exact ⟨⟨by decide, rfl⟩, by decide⟩
    · exact ⟨by decide, rfl⟩
  · intro d hd
    simp at hd
    rcases hd with rfl | rfl
    · exact .inr (Unrelated_plain _ _ .color rfl (by decide) (by decide) none)
    · exact .inl rfl

/-- `margin: 1 !important`, then setting a normal `margin-top`: `get` still returns the important one. -/
theorem C17_counterexample_important :
    B.get (Block.set (fun _ => 1) (⟨[], [.short (plain .margin) [1, 1, 1, 1]]⟩ : B) (.long (plain .marginTop) 2) false)
      (plain .marginTop) = some (.long (plain .marginTop) 1, true) := by decide

/-- `border-top-width: 1; border: 2`, then setting `border-top-width: 3`: the overridden declaration is updated in place,
and `get` returns the value of the shorthand after it. -/
theorem C17_counterexample_border :
    B.get (Block.set (fun _ => 1) (⟨[.long (plain .borderTopWidth) 1, .short (plain .border) [2, 0, 0]], []⟩ : B)
      (.long (plain .borderTopWidth) 3) false) (plain .borderTopWidth) = some (.long (plain .borderTopWidth) 2, false) := by decide

/-- `margin: 1; margin-top: 2`, then setting `margin: 3`: the longhand stays, so `get` returns `2 3 3 3`. -/
theorem C17_counterexample_shorthand :
    B.get (Block.set (fun _ => 1) (⟨[.short (plain .margin) [1, 1, 1, 1], .long (plain .marginTop) 2], []⟩ : B)
      (.short (plain .margin) [3, 3, 3, 3]) false) (plain .margin) = some (.short (plain .margin) [2, 3, 3, 3], false) := by decide

/-- `color: 1`, then setting `transition`: a list shorthand is not found in a block with any other declaration. -/
theorem C17_counterexample_list :
    B.get (Block.set (fun _ => 1) (⟨[.long (plain .color) 1], []⟩ : B) (.short (unpre .transition) [3, 3, 3, 3]) false)
      (unpre .transition) = none := by decide

/-! ## C18: remove -/

/-- **C18** (removed) After removing a longhand, `get` finds nothing. Missing: a prefixed property with an unprefixed
shorthand that has no prefixes (`place-content` and `-webkit-align-content`, counterexample below). -/
theorem C18_removed_partial (len : V → Nat) (valid : Pr → List V → Bool) (b : Block V) (hb : b.WF) (q : Id) (hq : q.WF)
    (hsh : q.sh = none) (hu : q.unprefixed ∨ ∀ d ∈ b.decls ++ b.imps, d.id.vp ≠ none) :
    (b.remove q).get len valid q = none := by
  have key : ∀ ds : List (Decl V), (∀ d ∈ ds, d.WF ∧ (q.unprefixed ∨ d.id.vp ≠ none)) → ∀ e ∈ removeFlat q ds, e.provides q = none := by
    intro ds
    induction ds with
    | nil => intro _ e he; simp [removeFlat] at he
    | cons d ds ih =>
      intro hd e he
      rw [removeFlat, List.mem_append] at he
      rcases he with he | he
      · unfold replacement at he
        have hlq : q.longhands = none := by simp [Id.longhands, hsh]
        simp only [hlq, Option.getD_none, List.not_mem_nil, or_false, List.isEmpty_nil, true_and] at he
        split at he
        · simp at he
        · next hid =>
          split at he
          · next hmem =>
            simp only [Option.getD_some, List.mem_filterMap] at he
            obtain ⟨l, hl, hle⟩ := he
            split at hle
            · simp at hle
            · next hlq' =>
              obtain ⟨i, fs, info, m, k, v, rfl, hi, hm, hv, hk, hfv, rfl⟩ := longhand_some d e l hle
              simp [Decl.provides, Decl.id, hlq', Decl.longhand]
          · next hmem =>
            simp at he
            subst he
            unfold Decl.provides
            rw [if_neg hid]
            cases hl : e.longhand q with
            | none => rfl
            | some x =>
              have h := hd e (by simp)
              exact absurd (longhand_mem e x q h.1 hq h.2 hl) hmem
      · exact ih (fun d hd' => hd d (by simp [hd'])) e he
  have hwf : ∀ d ∈ b.decls ++ b.imps, d.WF ∧ (q.unprefixed ∨ d.id.vp ≠ none) :=
    fun d hd => ⟨hb d hd, hu.imp id fun h => h d hd⟩
  rw [get_long len valid _ _ hsh, remove_decls]
  rw [look_none q _ (fun d hd => key b.imps (fun d hd => hwf d (by simp [hd])) d (by simpa using hd))]
  simp only
  rw [look_none q _ (fun d hd => key b.decls (fun d hd => hwf d (by simp [hd])) d (by simpa using hd))]
  rfl

/-- **C18** (others kept) Removing a longhand changes no other longhand: `get` gives what it gave before, also for the
longhands of a shorthand that is split. Missing: as in `C18_removed_partial`. -/
theorem C18_others_partial (len : V → Nat) (valid : Pr → List V → Bool) (b : Block V) (hb : b.WF) (q r : Id)
    (hsh : q.sh = none) (hr : r.WF) (hrs : r.sh = none) (hne : r ≠ q)
    (hu : r.unprefixed ∨ ∀ d ∈ b.decls ++ b.imps, d.id.vp ≠ none) :
    (b.remove q).get len valid r = b.get len valid r := by
  have key : ∀ ds : List (Decl V), (∀ d ∈ ds, d.WF ∧ (r.unprefixed ∨ d.id.vp ≠ none)) →
      look r (removeFlat q ds).reverse = look r ds.reverse := by
    intro ds
    induction ds with
    | nil => intro _; rfl
    | cons d ds ih =>
      intro hd
      rw [removeFlat, List.reverse_append, look_append, List.reverse_cons, look_append,
        ih fun d hd' => hd d (by simp [hd'])]
      congr 1
      obtain ⟨hdw, hdu⟩ := hd d (by simp)
      unfold replacement
      have hlq : q.longhands = none := by simp [Id.longhands, hsh]
      simp only [hlq, Option.getD_none, List.not_mem_nil, or_false, List.isEmpty_nil, true_and]
      split
      · next hid =>
        have : d.provides r = none := by
          unfold Decl.provides
          rw [if_neg (by rw [hid]; exact fun h => hne h.symm)]
          cases hl : d.longhand r with
          | none => rfl
          | some e =>
            obtain ⟨i, fs, info, m, k, v, rfl, hi, _⟩ := longhand_some d e r hl
            rw [show (Decl.short i fs : Decl V).id = i from rfl] at hid
            rw [hid, hsh] at hi
            simp at hi
        simp [look, this]
      · next hid =>
        split
        · next hmem =>
          simp only [Option.getD_some]
          have hdsh : d.id ≠ r := by
            intro h
            rw [h] at hmem
            simp [Id.longhands, hrs] at hmem
          have hall : ∀ l e, (if l = q then none else d.longhand l) = some e → e.provides r = if l = r then d.longhand r else none := by
            intro l e he
            split at he
            · simp at he
            · obtain ⟨i, fs, info, m, k, v, rfl, hi, hm, hv, hk, hfv, rfl⟩ := longhand_some d e l he
              by_cases hlr : l = r
              · subst hlr
                simp only [Decl.provides, Decl.id, if_true, he]
              · simp [Decl.provides, Decl.id, hlr, Decl.longhand]
          have hgen : ∀ ls : List Id, look r (ls.filterMap fun l => if l = q then none else d.longhand l).reverse =
              if r ∈ ls then d.longhand r else none := by
            intro ls
            induction ls with
            | nil => rfl
            | cons l ls ih2 =>
              rw [List.filterMap_cons]
              split
              · next hn =>
                rw [ih2]
                by_cases hlr : r = l
                · subst hlr
                  rw [if_neg hne] at hn
                  simp [hn]
                · simp [hlr]
              · next e he =>
                rw [List.reverse_cons, look_append, ih2]
                have h3 := hall l e he
                by_cases hlr : l = r
                · subst hlr
                  rw [if_pos rfl] at h3
                  simp only [List.mem_cons, true_or, if_true, look, List.findSome?_cons, List.findSome?_nil, h3]
                  split <;> cases d.longhand l <;> rfl
                · rw [if_neg hlr] at h3
                  have hlr' : ¬ r = l := fun h => hlr h.symm
                  simp [look, h3, hlr']
          rw [hgen]
          simp only [look, List.reverse_cons, List.reverse_nil, List.nil_append, List.findSome?_cons, List.findSome?_nil,
            Decl.provides, if_neg hdsh]
          split
          · cases d.longhand r <;> rfl
          · next hnm =>
            cases hl : d.longhand r with
            | none => rfl
            | some e => exact absurd (longhand_mem d e r hdw hr hdu hl) hnm
        · rfl
  have hwf : ∀ d ∈ b.decls ++ b.imps, d.WF ∧ (r.unprefixed ∨ d.id.vp ≠ none) :=
    fun d hd => ⟨hb d hd, hu.imp id fun h => h d hd⟩
  rw [get_long len valid _ _ hrs, get_long len valid _ _ hrs, remove_decls, key b.imps (fun d hd => hwf d (by simp [hd])),
    key b.decls (fun d hd => hwf d (by simp [hd]))]

omit [DecidableEq V] in
theorem removeFlat_short (q : Id) (hs : q.sh ≠ none) (ds : List (Decl V)) :
    removeFlat q ds = ds.filter fun d => decide (d.id ≠ q ∧ d.id ∉ q.longhands.getD []) := by
  have hne : q.longhands.getD [] ≠ [] := by
    unfold Id.longhands
    cases h : q.sh with
    | none => exact absurd h hs
    | some info =>
      obtain ⟨p, _, hp⟩ := Id.sh_name q info h
      obtain ⟨_, _, _, h4, h5⟩ := sh_facts p info hp
      cases hg : info.groups with
      | nil => exact absurd hg h5
      | cons g gs =>
        cases g with
        | nil => exact absurd rfl (h4 [] (by rw [hg]; simp))
        | cons m ms => simp [hg]
  induction ds with
  | nil => rfl
  | cons d ds ih =>
    rw [removeFlat, ih, List.filter_cons]
    unfold replacement
    by_cases h : d.id = q ∨ d.id ∈ q.longhands.getD []
    · have h' : ¬ (d.id ≠ q ∧ d.id ∉ q.longhands.getD []) := fun ⟨h1, h2⟩ => h.elim h1 h2
      simp only [if_pos h, h', decide_false]
      rfl
    · have h' : d.id ≠ q ∧ d.id ∉ q.longhands.getD [] := ⟨fun e => h (.inl e), fun e => h (.inr e)⟩
      have hemp : (q.longhands.getD []).isEmpty = false := by
        cases hh : q.longhands.getD [] with
        | nil => exact absurd hh hne
        | cons => rfl
      simp only [if_neg h, hemp, Bool.false_eq_true, false_and, if_false, Option.getD_none]
      rw [if_pos (by simpa using h')]
      rfl

/-- **C18** (shorthands) Removing a shorthand removes exactly its own declarations and those of its longhands; everything
else keeps its place. -/
theorem C18_shorthand (b : Block V) (q : Id) (hs : q.sh ≠ none) :
    b.remove q = ⟨b.decls.filter fun d => decide (d.id ≠ q ∧ d.id ∉ q.longhands.getD []),
      b.imps.filter fun d => decide (d.id ≠ q ∧ d.id ∉ q.longhands.getD [])⟩ := by
  rw [remove_decls, removeFlat_short q hs, removeFlat_short q hs]

omit [DecidableEq V] in
theorem covers_unrelated (p : Pr) (info : ShInfo) (hp : p.sh = some info) (q : Id) (hq : q.name = .pr p) (i : Id)
    (h : Unrelated p info i) : i ≠ q ∧ i ∉ q.longhands.getD [] := by
  refine ⟨fun he => h.1 (by rw [he, hq]), fun hm => ?_⟩
  have : q.sh = some info := by simp [Id.sh, hq, hp]
  simp only [Id.longhands, this, Option.map_some, Option.getD_some, List.mem_map] at hm
  obtain ⟨m, hm, rfl⟩ := hm
  exact (h.2 m hm none).1 rfl

/-- **C18** (shorthand removed) If no other shorthand in the block touches its longhands, a removed shorthand (not a list) is not
found any more. Missing: blocks with an overlapping shorthand, where the code is wrong (counterexample below), and list shorthands. -/
theorem C18_shorthand_removed_partial (len : V → Nat) (valid : Pr → List V → Bool) (b : Block V) (p : Pr) (info : ShInfo)
    (hp : p.sh = some info) (hl : info.isList = false) (q : Id) (hqn : q.name = .pr p)
    (hu : ∀ d ∈ b.decls ++ b.imps, d.id = q ∨ d.id ∈ q.longhands.getD [] ∨ Unrelated p info d.id) :
    (b.remove q).get len valid q = none := by
  have hsh : q.sh ≠ none := by simp [Id.sh, hqn, hp]
  rw [C18_shorthand b q hsh, get_short len valid _ q p info hqn hp]
  have hun : ∀ d ∈ (Block.iter ⟨b.decls.filter fun d => decide (d.id ≠ q ∧ d.id ∉ q.longhands.getD []),
      b.imps.filter fun d => decide (d.id ≠ q ∧ d.id ∉ q.longhands.getD [])⟩ : List (Decl V × Bool)), Unrelated p info d.1.id := by
    intro d hd
    simp only [Block.iter, List.mem_append, List.mem_map, List.mem_filter, decide_eq_true_eq] at hd
    rcases hd with ⟨a, ⟨h1, h2, h3⟩, rfl⟩ | ⟨a, ⟨h1, h2, h3⟩, rfl⟩
    · exact ((hu a (by simp [h1])).resolve_left h2).resolve_left h3
    · exact ((hu a (by simp [h1])).resolve_left h2).resolve_left h3
  unfold fromLonghands
  rw [unrelated_loop len p info _ hl .init _ hun]
  obtain ⟨_, _, _, h4, h5⟩ := sh_facts p info hp
  have : groupValues (Acc.init : Acc V).vals info.groups = none := by
    cases hg : info.groups with
    | nil => exact absurd hg h5
    | cons g gs =>
      cases g with
      | nil => exact absurd rfl (h4 [] (by rw [hg]; simp))
      | cons m ms => simp [groupValues, groupValue, Acc.init]
  simp [this, Acc.init] at *

example : B.get (sample.remove (plain .marginTop)) (plain .marginTop) = none :=
  C18_removed_partial _ _ sample sample_wf (plain .marginTop) ⟨by decide, rfl⟩ (by decide) (.inl (.inl rfl))

example : B.get (sample.remove (plain .marginTop)) (plain .marginLeft) = some (.long (plain .marginLeft) 5, false) :=
  (C18_others_partial _ _ sample sample_wf (plain .marginTop) (plain .marginLeft) (by decide) ⟨by decide, rfl⟩ (by decide) (by decide)
    (.inl (.inl rfl))).trans (by decide)

/-- `border: 1`, then removing `border-top`: nothing is removed and `border-top` is still found. -/
theorem C18_counterexample_overlap :
    B.get ((⟨[.short (plain .border) [1, 2, 3]], []⟩ : B).remove (plain .borderTop)) (plain .borderTop) =
      some (.short (plain .borderTop) [1, 2, 3], false) := by
  rw [remove_decls]; decide

/-- `place-content: 1 2` has no prefixes, yet `get` of `-webkit-align-content` finds its value; `remove` does not. -/
theorem C18_counterexample_prefix :
    B.get ((⟨[.short (plain .placeContent) [1, 2]], []⟩ : B).remove ⟨.pr .alignContent, some Prefix.webkit.set⟩)
      ⟨.pr .alignContent, some Prefix.webkit.set⟩ = some (.long ⟨.pr .alignContent, some Prefix.webkit.set⟩ 1, false) := by
  rw [remove_decls]; decide

/-- `text-decoration: line thickness style color`, then removing `text-decoration-line`: the thickness, which has no prefixes,
is lost because the shorthand does not give it out. -/
theorem C18_counterexample_lost :
    ((⟨[.short (unpre .textDecoration) [1, 2, 3, 4]], []⟩ : B).remove (unpre .textDecorationLine)).decls =
      [.long (unpre .textDecorationStyle) 3, .long (unpre .textDecorationColor) 4] := by
  rw [remove_decls]; decide

/-- A shorthand with variables is dropped altogether when one of its longhands is removed. -/
theorem C18_counterexample_unparsed :
    ((⟨[.unparsed (plain .margin) 1], []⟩ : B).remove (plain .marginTop)).decls = [] := by
  rw [remove_decls]; decide

/-! ## C48: a shorthand is read from its longhands -/

/-- **C48** If `get` returns a shorthand, then each of its longhands, asked for by itself, has the value and importance the
shorthand says. Missing: blocks with an unparsed longhand, and shorthands mixing prefixed and unprefixed longhands
(counterexamples below). -/
theorem C48_shorthand_agrees_partial (len : V → Nat) (valid : Pr → List V → Bool) (b : Block V) (hb : b.WF) (q : Id) (hq : q.WF) (p : Pr)
    (info : ShInfo) (hqn : q.name = .pr p) (hp : p.sh = some info) (hu : ∀ m ∈ info.groups.flatten, m.hasVp = p.hasVp)
    (hun : ∀ d ∈ b.decls ++ b.imps, ∀ m ∈ info.groups.flatten, ∀ v, d ≠ .unparsed (memberId q.shPrefix m) v)
    (r : Decl V) (imp : Bool) (h : b.get len valid q = some (r, imp)) :
    ∃ fs, r = .short q fs ∧ ∀ m k, keyOf info.groups m = some k →
      ∃ v, fs[k]? = some v ∧
        b.get len valid (memberId q.shPrefix m) = some (.long (memberId q.shPrefix m) v, imp) := by
  rw [get_short len valid b q p info hqn hp, Option.map_eq_some_iff] at h
  obtain ⟨⟨fs, imp'⟩, hf, he⟩ := h
  injection he with he1 he2
  simp only at he1 he2
  subst he1; subst he2
  refine ⟨fs, rfl, fun m k hk => ?_⟩
  have hmem : m ∈ info.groups.flatten := (keyOf_mem _ _).1 ⟨k, hk⟩
  obtain ⟨g, hg, hmg⟩ := keyOf_lt _ _ _ hk
  unfold fromLonghands at hf
  split at hf
  · simp at hf
  · next a ha =>
    split at hf
    · simp at hf
    · next hflag =>
      split at hf
      · simp at hf
      · next fs' hfs =>
        split at hf
        · injection hf with hf
          injection hf with hf1 hf2
          subst hf1; subst hf2
          obtain ⟨v, hv1, hv2⟩ := groupValues_get a.vals info.groups fs' hfs k g hg m hmg
          refine ⟨v, hv1, ?_⟩
          have hvp : p.hasVp = false → q.shPrefix = Prefix.none.set := by
            intro hf
            have h1 := hq.2
            rw [hqn] at h1
            simp only [hf] at h1
            simp at h1
            simp [Id.shPrefix, h1]
          have hiter : ∀ d ∈ b.iter, d.1 ∈ b.decls ++ b.imps := by
            intro d hd
            simp [Block.iter] at hd
            rcases hd with ⟨x, hx, rfl⟩ | ⟨x, hx, rfl⟩ <;> simp [hx]
          obtain ⟨k1, k2, _, _, k5⟩ := fromLoop_vals len p info q.shPrefix hp hu hvp b.iter .init a
            (fun d hd => hb d.1 (hiter d hd)) (fun d hd => hun d.1 (hiter d hd)) (Nat.le_refl _) ha
          have hm1 := k1 m hmem
          rw [hv2] at hm1
          simp only [Acc.init, Option.or_none] at hm1
          have hmsh : (memberId q.shPrefix m).sh = none := by
            simp [memberId, Id.sh, (sh_facts p info hp).1 m hmem]
          have hget : b.get len valid (memberId q.shPrefix m) =
              b.iter.reverse.findSome? fun d => (d.1.provides (memberId q.shPrefix m)).map (·, d.2) := by
            simp [Block.get, Id.isShorthand, hmsh]
          rw [hget]
          -- the first provider gives both
          have hfirst : ∀ L : List (Decl V × Bool), (∀ d ∈ L, d ∈ b.iter) →
              some v = L.findSome? (fun d => (d.1.provides (memberId q.shPrefix m)).bind Decl.value?) →
              L.findSome? (fun d => (d.1.provides (memberId q.shPrefix m)).map (·, d.2)) =
                some (.long (memberId q.shPrefix m) v, decide (a.imps > 0)) := by
            intro L
            induction L with
            | nil => intro _ h; simp at h
            | cons d L ih =>
              intro hL hv
              have hdi := hL d (by simp)
              rw [List.findSome?_cons] at hv ⊢
              cases hpd : d.1.provides (memberId q.shPrefix m) with
              | none =>
                rw [hpd] at hv
                simp only [Option.map_none]
                exact ih (fun d hd => hL d (by simp [hd])) (by simpa using hv)
              | some e =>
                have hlong : ∃ w, e = .long (memberId q.shPrefix m) w := by
                  unfold Decl.provides at hpd
                  split at hpd
                  · next hid =>
                    injection hpd with hpd
                    cases hd1 : d.1 with
                    | long i w => rw [hd1] at hpd hid; exact ⟨w, by rw [← hpd, ← hid]; rfl⟩
                    | short i fs =>
                      have := hb d.1 (hiter d hdi)
                      rw [hd1] at this hid
                      obtain ⟨_, info', hi, _⟩ := this
                      rw [show i = memberId q.shPrefix m from hid, hmsh] at hi
                      simp at hi
                    | unparsed i w =>
                      exact absurd (show d.1 = .unparsed (memberId q.shPrefix m) w by rw [hd1] at hid ⊢; rw [← hid]; rfl)
                        (hun d.1 (hiter d hdi) m hmem w)
                  · obtain ⟨i, fs, info, m, k, v, _, _, _, _, _, _, rfl⟩ := longhand_some _ _ _ hpd
                    exact ⟨v, rfl⟩
                obtain ⟨w, rfl⟩ := hlong
                rw [hpd] at hv
                simp only [Option.bind_some, Decl.value?] at hv
                injection hv with hv
                subst hv
                simp only [Option.map_some]
                have h5 := k5 d hdi m hmem (by rw [hpd]; simp [Decl.value?])
                have : d.2 = decide (a.imps > 0) := by
                  cases hd2 : d.2 with
                  | true => rw [hd2, if_pos rfl] at h5; simp [h5]
                  | false =>
                    rw [hd2] at h5
                    simp only [Bool.false_eq_true, if_false] at h5
                    have : ¬ a.imps > 0 := fun hpos => hflag ⟨hpos, by omega⟩
                    simp at this
                    simp [this]
                rw [this]
          exact hfirst _ (by simp) hm1
        · simp at hf

/-- The theorem applies to the sample block: `margin` is not reported there, since its longhands differ in importance; without the
important one it is, and then `margin-bottom` is what it says. -/
example : ∃ fs, Decl.short (plain .margin) [7, 2, 3, 4] = .short (plain .margin) fs ∧ ∀ m k,
    keyOf [[Pr.marginTop], [.marginRight], [.marginBottom], [.marginLeft]] m = some k → ∃ v, fs[k]? = some v ∧
      B.get (⟨[.short (plain .margin) [1, 2, 3, 4], .long (plain .marginTop) 7], []⟩ : B) (memberId Prefix.none.set m) =
        some (.long (memberId Prefix.none.set m) v, false) := by
  refine C48_shorthand_agrees_partial _ _ _ ?_ (plain .margin) ⟨by decide, rfl⟩ .margin _ rfl rfl (by decide) ?_ _ _ (by decide)
  · intro d hd
    simp at hd
    rcases hd with rfl | rfl
    · exact ⟨⟨by decide, rfl⟩, _, rfl, by decide⟩
    · exact ⟨⟨by decide, rfl⟩, by decide⟩
  · intro d hd m _ v
    simp at hd
    rcases hd with rfl | rfl <;> simp

example : B.get (⟨[.short (plain .margin) [1, 2, 3, 4], .long (plain .marginTop) 7], []⟩ : B) (plain .margin) =
    some (.short (plain .margin) [7, 2, 3, 4], false) := by decide

/-- `margin: 1; margin-top: var(..)`: the shorthand is still reported as `1 1 1 1`. -/
theorem C48_counterexample_unparsed :
    B.get (⟨[.short (plain .margin) [1, 1, 1, 1], .unparsed (plain .marginTop) 9], []⟩ : B) (plain .margin) =
      some (.short (plain .margin) [1, 1, 1, 1], false) ∧
    B.get (⟨[.short (plain .margin) [1, 1, 1, 1], .unparsed (plain .marginTop) 9], []⟩ : B) (plain .marginTop) =
      some (.unparsed (plain .marginTop) 9, false) := by decide

/-- `border-image` has prefixes and its longhands do not: the shorthand is found, its longhands are not. -/
theorem C48_counterexample_prefix :
    B.get (⟨[.short (unpre .borderImage) [1, 2, 3, 4, 5]], []⟩ : B) (unpre .borderImage) =
      some (.short (unpre .borderImage) [1, 2, 3, 4, 5], false) ∧
    B.get (⟨[.short (unpre .borderImage) [1, 2, 3, 4, 5]], []⟩ : B) (plain .borderImageSource) = none := by decide

end Verif.Declarations
