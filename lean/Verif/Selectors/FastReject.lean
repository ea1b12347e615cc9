import Verif.Selectors.Bloom
import Verif.Selectors.MatchingProps
/-!
# Selectors: rejecting by the ancestor Bloom filter (C57)
-/
namespace Verif.Selectors.FastReject
open Verif.Selectors.Bloom

variable {E : Type}

/-- `PrecomputedHash::precomputed_hash` of identifiers, local names and namespace URLs; any functions
to `u32`. -/
structure Hashers where
  ident : Str → Nat
  name : Str → Nat
  url : Str → Nat

/-- The state of `AncestorIter` (selectors/parser.rs:1095-1142) while it walks over the components in
match order: `skipFirst` is `skip_until_ancestor` called from `new`, `skip` is the same called from
`next`, `fresh` is the call `self.0.next()` at the end of `next`, `yielding` is the start of
`next`. -/
inductive Mode
  | skipFirst | skip | yielding | fresh
  deriving DecidableEq

/-- `Combinator::Child | Combinator::Descendant` (selectors/parser.rs:1116, 1135). -/
def isUp : Combinator → Bool
  | .child | .descendant => true
  | _ => false

/-- What `AncestorIter` does at a combinator (selectors/parser.rs:1107-1141): `none` ends the
iteration. -/
def atCombinator : Mode → Combinator → Option Mode
  | .skipFirst, k => some (if isUp k then .yielding else .skipFirst)
  | .skip, k => some (if isUp k then .fresh else .skip)
  | .yielding, k => some (if isUp k then .fresh else .skip)
  | .fresh, _ => none

/-- selectors/parser.rs:651-655: the hash is appended; the result tells whether to go on. -/
def push (hs : List Nat) (h : Nat) : List Nat × Bool :=
  (hs ++ [h &&& bloomHashMask], decide ((hs ++ [h &&& bloomHashMask]).length ≠ 4))

mutual
/-- The body of the loop of `collect_ancestor_hashes` (selectors/parser.rs:621-655). `q` is
`QuirksMode::Quirks`. -/
def collectComponent (H : Hashers) (q : Bool) : Component → List Nat → List Nat × Bool
  | .localName n l, hs => if n ≠ l then (hs, true) else push hs (H.name n)
  | .defaultNamespace u, hs => push hs (H.url u)
  | .namespace _ u, hs => push hs (H.url u)
  | .id s, hs => if q then (hs, true) else push hs (H.ident s)
  | .cls s, hs => if q then (hs, true) else push hs (H.ident s)
  | .is l, hs => collectOnly H q l hs
  | .where l, hs => collectOnly H q l hs
  | _, hs => (hs, true)
/-- selectors/parser.rs:640-648: only if the list has exactly one selector. -/
def collectOnly (H : Hashers) (q : Bool) : List Selector → List Nat → List Nat × Bool
  | [s], hs => collectSelector H q s hs
  | _, hs => (hs, true)
/-- `collect_ancestor_hashes` of `selector.iter()` (selectors/parser.rs:608-658). -/
def collectSelector (H : Hashers) (q : Bool) : Selector → List Nat → List Nat × Bool
  | .mk _ cs, hs => collectList H q .skipFirst cs hs
/-- The loop of `collect_ancestor_hashes` over `AncestorIter` (selectors/parser.rs:620-658,
1095-1142). -/
def collectList (H : Hashers) (q : Bool) : Mode → List Component → List Nat → List Nat × Bool
  | _, [], hs => (hs, true)
  | m, .combinator k :: rest, hs =>
      match atCombinator m k with
      | none => (hs, true)
      | some m' => collectList H q m' rest hs
  | m, c :: rest, hs =>
      if m = .skipFirst ∨ m = .skip then collectList H q m rest hs
      else
        let r := collectComponent H q c hs
        if r.2 then collectList H q .yielding rest r.1 else (r.1, false)
end

/-- `AncestorHashes::new` (selectors/parser.rs:660-686). The values stay below 2^32, so that
natural numbers stand for `u32`. -/
def ancestorHashes (H : Hashers) (q : Bool) (s : Selector) : Nat × Nat × Nat :=
  let hs := (collectSelector H q s []).1
  let h (i : Nat) := hs.getD i 0
  if hs.length = 4 then
    (h 0 ||| ((h 3 &&& 0x000000ff) <<< 24), h 1 ||| ((h 3 &&& 0x0000ff00) <<< 16),
      h 2 ||| ((h 3 &&& 0x00ff0000) <<< 8))
  else (h 0, h 1, h 2)

/-- `fourth_hash` (selectors/parser.rs:689-693). -/
def fourthHash (p : Nat × Nat × Nat) : Nat :=
  ((p.1 &&& 0xff000000) >>> 24) ||| ((p.2.1 &&& 0xff000000) >>> 16) ||| ((p.2.2 &&& 0xff000000) >>> 8)

/-- `may_match` (selectors/matching.rs:91-117). -/
def mayMatch (p : Nat × Nat × Nat) (bf : Counters) : Bool :=
  if p.1 = 0 then true
  else if !mightContain bf (p.1 &&& bloomHashMask) then false
  else if p.2.1 = 0 then true
  else if !mightContain bf (p.2.1 &&& bloomHashMask) then false
  else if p.2.2 = 0 then true
  else if !mightContain bf (p.2.2 &&& bloomHashMask) then false
  else fourthHash p == 0 || mightContain bf (fourthHash p)

/-- `matches_selector` (selectors/matching.rs:186-208) with a filter: reject early or match. -/
def matchesWithFilter (d : Dom E) (atom : Component → E → Bool) (H : Hashers) (q : Bool)
    (bf : Counters) (s : Selector) (e : E) : Bool :=
  if !mayMatch (ancestorHashes H q s) bf then false else matchesSelector d atom s e

/-! ## Specification -/

/-- What an element puts into the filter: `x` has the hash `h`, i.e. it is the hash of its id, of one
of its classes, of its local name or of its namespace. -/
structure Doc (E : Type) extends Dom E where
  ids : E → List Str
  classes : E → List Str
  localName : E → Str
  ns : E → Str

def Doc.HasHash (d : Doc E) (H : Hashers) (x : E) (h : Nat) : Prop :=
  (∃ i ∈ d.ids x, h = H.ident i) ∨ (∃ c ∈ d.classes x, h = H.ident c) ∨ h = H.name (d.localName x) ∨
    h = H.url (d.ns x)

/-- The simple selectors mean what they say: outside quirks mode an id or class selector needs that
id or class, a type selector in lower case needs that name, a namespace that namespace. -/
structure Faithful (d : Doc E) (q : Bool) (atom : Component → E → Bool) : Prop where
  id : q = false → ∀ i x, atom (.id i) x = true → i ∈ d.ids x
  cls : q = false → ∀ c x, atom (.cls c) x = true → c ∈ d.classes x
  name : ∀ n x, atom (.localName n n) x = true → d.localName x = n
  defaultNs : ∀ u x, atom (.defaultNamespace u) x = true → d.ns x = u
  nsUrl : ∀ p u x, atom (.namespace p u) x = true → d.ns x = u

/-! ## Bit arithmetic -/

theorem and_byte (n j : Nat) : n &&& (255 <<< j) = ((n >>> j) % 256) <<< j := by
  apply Nat.eq_of_testBit_eq
  intro i
  have h255 : 255 = 2 ^ 8 - 1 := by decide
  have h256 : 256 = 2 ^ 8 := by decide
  rw [Nat.testBit_and, Nat.testBit_shiftLeft, Nat.testBit_shiftLeft, h255, Nat.testBit_two_pow_sub_one,
    h256, Nat.testBit_mod_two_pow, Nat.testBit_shiftRight]
  by_cases hij : j ≤ i
  · have : j + (i - j) = i := by omega
    simp [hij, this, Bool.and_comm]
  · simp [hij]

theorem or_add (a b : Nat) (h : a < 2 ^ 24) : a ||| (b <<< 24) = b * 2 ^ 24 + a := by
  rw [Nat.or_comm, ← Nat.shiftLeft_add_eq_or_of_lt h, Nat.shiftLeft_eq]

theorem low (a b : Nat) (h : a < 2 ^ 24) : (a ||| (b <<< 24)) &&& bloomHashMask = a := by
  rw [or_add a b h, show bloomHashMask = 2 ^ 24 - 1 from by decide, Nat.and_two_pow_sub_one_eq_mod]
  omega

theorem high (a b : Nat) (h : a < 2 ^ 24) (hb : b < 256) :
    (a ||| (b <<< 24)) &&& 0xff000000 = b <<< 24 := by
  rw [show 0xff000000 = 255 <<< 24 from by decide, and_byte, or_add a b h, Nat.shiftRight_eq_div_pow]
  congr 1
  omega

theorem reassemble (n : Nat) (h : n < 2 ^ 24) :
    (n % 256) ||| ((n / 256 % 256) <<< 8) ||| ((n / 65536 % 256) <<< 16) = n := by
  rw [Nat.or_comm (n % 256), ← Nat.shiftLeft_add_eq_or_of_lt (by omega : n % 256 < 2 ^ 8),
    Nat.shiftLeft_eq, Nat.or_comm, ← Nat.shiftLeft_add_eq_or_of_lt (by omega), Nat.shiftLeft_eq]
  omega

theorem pack_fourth (a b c n : Nat) (ha : a < 2 ^ 24) (hb : b < 2 ^ 24) (hc : c < 2 ^ 24)
    (hn : n < 2 ^ 24) :
    fourthHash (a ||| ((n &&& 0x000000ff) <<< 24), b ||| ((n &&& 0x0000ff00) <<< 16),
      c ||| ((n &&& 0x00ff0000) <<< 8)) = n ∧
    (a ||| ((n &&& 0x000000ff) <<< 24)) &&& bloomHashMask = a ∧
    (b ||| ((n &&& 0x0000ff00) <<< 16)) &&& bloomHashMask = b ∧
    (c ||| ((n &&& 0x00ff0000) <<< 8)) &&& bloomHashMask = c := by
  have e0 : (n &&& 0x000000ff) <<< 24 = (n % 256) <<< 24 := by
    rw [show 0x000000ff = 255 <<< 0 from by decide, and_byte]; simp
  have e1 : (n &&& 0x0000ff00) <<< 16 = (n / 256 % 256) <<< 24 := by
    rw [show 0x0000ff00 = 255 <<< 8 from by decide, and_byte, ← Nat.shiftLeft_add,
      Nat.shiftRight_eq_div_pow]
  have e2 : (n &&& 0x00ff0000) <<< 8 = (n / 65536 % 256) <<< 24 := by
    rw [show 0x00ff0000 = 255 <<< 16 from by decide, and_byte, ← Nat.shiftLeft_add,
      Nat.shiftRight_eq_div_pow]
  rw [e0, e1, e2]
  refine ⟨?_, low _ _ ha, low _ _ hb, low _ _ hc⟩
  unfold fourthHash
  simp only []
  rw [high _ _ ha (by omega), high _ _ hb (by omega), high _ _ hc (by omega)]
  have s0 : ∀ x, (x <<< 24) >>> 24 = x := fun x => by rw [Nat.shiftLeft_shiftRight]
  have s1 : ∀ x, (x <<< 24) >>> 16 = x <<< 8 := fun x => by
    rw [Nat.shiftLeft_eq, Nat.shiftRight_eq_div_pow, Nat.shiftLeft_eq]; omega
  have s2 : ∀ x, (x <<< 24) >>> 8 = x <<< 16 := fun x => by
    rw [Nat.shiftLeft_eq, Nat.shiftRight_eq_div_pow, Nat.shiftLeft_eq]; omega
  rw [s0, s1, s2, reassemble n hn]

/-! ## The collected hashes -/

/-- At most four hashes, of 24 bits; if the collection goes on there are fewer than four. -/
def Bounded (r : List Nat × Bool) : Prop :=
  r.1.length ≤ 4 ∧ (r.2 = true → r.1.length < 4)

theorem push_bounded (hs : List Nat) (h : Nat) (hl : hs.length < 4) : Bounded (push hs h) := by
  unfold Bounded push
  simp only [List.length_append, List.length_cons, List.length_nil, decide_eq_true_eq]
  omega

mutual
theorem collectComponent_bounded (H : Hashers) (q : Bool) : ∀ (c : Component) (hs : List Nat),
    hs.length < 4 → Bounded (collectComponent H q c hs)
  | .localName n l, hs, h => by
    simp only [collectComponent]
    split
    · exact ⟨by simp only []; omega, fun _ => h⟩
    · exact push_bounded _ _ h
  | .id _, hs, h => by
    simp only [collectComponent]
    split
    · exact ⟨by simp only []; omega, fun _ => h⟩
    · exact push_bounded _ _ h
  | .cls _, hs, h => by
    simp only [collectComponent]
    split
    · exact ⟨by simp only []; omega, fun _ => h⟩
    · exact push_bounded _ _ h
  | .defaultNamespace u, hs, h => by simp only [collectComponent]; exact push_bounded _ _ h
  | .namespace _ u, hs, h => by simp only [collectComponent]; exact push_bounded _ _ h
  | .is l, hs, h => by simp only [collectComponent]; exact collectOnly_bounded H q l hs h
  | .where l, hs, h => by simp only [collectComponent]; exact collectOnly_bounded H q l hs h
  | .combinator _, hs, h | .anyNamespace, hs, h | .noNamespace, hs, h | .universal, hs, h
  | .attrExists _, hs, h | .attr _, hs, h | .attrOther _, hs, h | .negation _, hs, h | .root, hs, h
  | .empty, hs, h | .scope, hs, h | .nth _, hs, h | .nthOf _ _, hs, h | .pseudoClass _, hs, h
  | .local _, hs, h | .global _, hs, h | .slotted _, hs, h | .part _, hs, h | .host, hs, h
  | .hostFn _, hs, h | .any _, hs, h | .has _, hs, h | .pseudoElement _, hs, h
  | .viewTransitionAny _, hs, h | .nesting, hs, h => by
    simp only [collectComponent]
    exact ⟨by simp only []; omega, fun _ => h⟩
theorem collectOnly_bounded (H : Hashers) (q : Bool) : ∀ (l : List Selector) (hs : List Nat),
    hs.length < 4 → Bounded (collectOnly H q l hs)
  | [], hs, h => by simp only [collectOnly]; exact ⟨by simp only []; omega, fun _ => h⟩
  | [s], hs, h => by simp only [collectOnly]; exact collectSelector_bounded H q s hs h
  | _ :: _ :: _, hs, h => by simp only [collectOnly]; exact ⟨by simp only []; omega, fun _ => h⟩
theorem collectSelector_bounded (H : Hashers) (q : Bool) : ∀ (s : Selector) (hs : List Nat),
    hs.length < 4 → Bounded (collectSelector H q s hs)
  | .mk _ cs, hs, h => by simp only [collectSelector]; exact collectList_bounded H q .skipFirst cs hs h
theorem collectList_bounded (H : Hashers) (q : Bool) : ∀ (m : Mode) (cs : List Component)
    (hs : List Nat), hs.length < 4 → Bounded (collectList H q m cs hs)
  | m, [], hs, h => by simp only [collectList]; exact ⟨by simp only []; omega, fun _ => h⟩
  | m, c :: rest, hs, h => by
    have ihc := collectComponent_bounded H q c hs h
    by_cases hc : ∃ k, c = .combinator k
    · obtain ⟨k, rfl⟩ := hc
      simp only [collectList]
      cases atCombinator m k with
      | none => exact ⟨by simp only []; omega, fun _ => h⟩
      | some m' => exact collectList_bounded H q m' rest hs h
    · rw [show collectList H q m (c :: rest) hs = _ from by
        rw [collectList]; intro k hk; exact hc ⟨k, hk⟩]
      split
      · exact collectList_bounded H q m rest hs h
      · simp only []
        split
        · rename_i hgo
          exact collectList_bounded H q .yielding rest _ (ihc.2 hgo)
        · exact ⟨ihc.1, by simp⟩
end

/-- `h` is the masked hash of an ancestor of `e`. -/
def FromAncestor (d : Doc E) (H : Hashers) (e : E) (h : Nat) : Prop :=
  ∃ x n, d.Ancestor e x ∧ d.HasHash H x n ∧ h = n &&& bloomHashMask

/-- Where the iteration may stand: at `x`, all of whose ancestors are ancestors of `e`; while
components are yielded `x` itself is one. -/
def At (d : Doc E) (e : E) (m : Mode) (x : E) : Prop :=
  (∀ y, d.Ancestor x y → d.Ancestor e y) ∧ (m = .yielding ∨ m = .fresh → d.Ancestor e x)

theorem at_step {d : Doc E} {e x y : E} {m m' : Mode} {k : Combinator} (h : At d e m x)
    (hr : d.Rel k x y) (hm : atCombinator m k = some m') : At d e m' y := by
  have hup : ∀ z, d.Ancestor y z → d.Ancestor x z := by
    intro z hz
    cases k with
    | child => exact .head hr hz
    | descendant => exact Relation.TransGen.trans hr hz
    | deep => exact Relation.TransGen.trans hr hz
    | deepDescendant => exact Relation.TransGen.trans hr hz
    | nextSibling => exact closure_ancestor (d := d.toDom) (.single (.inr hr)) hz
    | laterSibling =>
      exact closure_ancestor (d := d.toDom) (Dom.Before.closure (d := d.toDom) hr) hz
    | pseudoElement => exact hr.elim
    | slotAssignment => exact hr.elim
    | part => exact hr.elim
  refine ⟨fun z hz => h.1 z (hup z hz), ?_⟩
  intro hy
  have hk : isUp k = true := by
    cases m <;> simp only [atCombinator, Option.some.injEq, reduceCtorEq] at hm <;>
      (subst hm; by_contra hk; simp [hk] at hy)
  apply h.1
  cases k with
  | child => exact .single hr
  | descendant => exact hr
  | nextSibling | laterSibling | pseudoElement | slotAssignment | part | deepDescendant | deep =>
    simp [isUp] at hk

theorem push_from {d : Doc E} {H : Hashers} {e x : E} {hs : List Nat} {n : Nat}
    (hx : d.Ancestor e x) (hh : d.HasHash H x n) (hhs : ∀ h ∈ hs, FromAncestor d H e h) :
    ∀ h ∈ (push hs n).1, FromAncestor d H e h := by
  intro h hm
  simp only [push, List.mem_append, List.mem_singleton] at hm
  rcases hm with hm | rfl
  · exact hhs h hm
  · exact ⟨x, n, hx, hh, rfl⟩

mutual
theorem collectComponent_from (d : Doc E) (H : Hashers) (q : Bool) (atom : Component → E → Bool)
    (hf : Faithful d q atom) (e : E) : ∀ (c : Component) (x : E) (hs : List Nat),
    c.Sem d.toDom (fun c e => atom c e = true) x → d.Ancestor e x →
    (∀ h ∈ hs, FromAncestor d H e h) →
    ∀ h ∈ (collectComponent H q c hs).1, FromAncestor d H e h
  | .localName n l, x, hs, hsem, hx, hhs => by
    simp only [Component.Sem] at hsem
    simp only [collectComponent]
    split
    · exact hhs
    · rename_i hnl
      have hnl : n = l := by simpa using hnl
      subst hnl
      exact push_from hx (.inr (.inr (.inl (by rw [hf.name n x hsem])))) hhs
  | .id i, x, hs, hsem, hx, hhs => by
    simp only [Component.Sem] at hsem
    simp only [collectComponent]
    split
    · exact hhs
    · rename_i hq
      exact push_from hx (.inl ⟨i, hf.id (by simpa using hq) i x hsem, rfl⟩) hhs
  | .cls i, x, hs, hsem, hx, hhs => by
    simp only [Component.Sem] at hsem
    simp only [collectComponent]
    split
    · exact hhs
    · rename_i hq
      exact push_from hx (.inr (.inl ⟨i, hf.cls (by simpa using hq) i x hsem, rfl⟩)) hhs
  | .defaultNamespace u, x, hs, hsem, hx, hhs => by
    simp only [Component.Sem] at hsem
    simp only [collectComponent]
    exact push_from hx (.inr (.inr (.inr (by rw [hf.defaultNs u x hsem])))) hhs
  | .namespace p u, x, hs, hsem, hx, hhs => by
    simp only [Component.Sem] at hsem
    simp only [collectComponent]
    exact push_from hx (.inr (.inr (.inr (by rw [hf.nsUrl p u x hsem])))) hhs
  | .is l, x, hs, hsem, hx, hhs => by
    simp only [Component.Sem] at hsem
    simp only [collectComponent]
    exact collectOnly_from d H q atom hf e l x hs hsem hx hhs
  | .where l, x, hs, hsem, hx, hhs => by
    simp only [Component.Sem] at hsem
    simp only [collectComponent]
    exact collectOnly_from d H q atom hf e l x hs hsem hx hhs
  | .combinator _, x, hs, _, _, hhs | .anyNamespace, x, hs, _, _, hhs
  | .noNamespace, x, hs, _, _, hhs | .universal, x, hs, _, _, hhs
  | .attrExists _, x, hs, _, _, hhs | .attr _, x, hs, _, _, hhs | .attrOther _, x, hs, _, _, hhs
  | .negation _, x, hs, _, _, hhs | .root, x, hs, _, _, hhs
  | .empty, x, hs, _, _, hhs | .scope, x, hs, _, _, hhs | .nth _, x, hs, _, _, hhs
  | .nthOf _ _, x, hs, _, _, hhs | .pseudoClass _, x, hs, _, _, hhs
  | .local _, x, hs, _, _, hhs | .global _, x, hs, _, _, hhs | .slotted _, x, hs, _, _, hhs
  | .part _, x, hs, _, _, hhs | .host, x, hs, _, _, hhs
  | .hostFn _, x, hs, _, _, hhs | .any _, x, hs, _, _, hhs | .has _, x, hs, _, _, hhs
  | .pseudoElement _, x, hs, _, _, hhs
  | .viewTransitionAny _, x, hs, _, _, hhs | .nesting, x, hs, _, _, hhs => by
    simp only [collectComponent]
    exact hhs
theorem collectOnly_from (d : Doc E) (H : Hashers) (q : Bool) (atom : Component → E → Bool)
    (hf : Faithful d q atom) (e : E) : ∀ (l : List Selector) (x : E) (hs : List Nat),
    AnySem d.toDom (fun c e => atom c e = true) l x → d.Ancestor e x →
    (∀ h ∈ hs, FromAncestor d H e h) →
    ∀ h ∈ (collectOnly H q l hs).1, FromAncestor d H e h
  | [], x, hs, _, _, hhs => by simp only [collectOnly]; exact hhs
  | [s], x, hs, hsem, hx, hhs => by
    simp only [AnySem, or_false] at hsem
    simp only [collectOnly]
    exact collectSelector_from d H q atom hf e s x hs hsem
      (fun y hy => Relation.TransGen.trans hx hy) hhs
  | _ :: _ :: _, x, hs, _, _, hhs => by simp only [collectOnly]; exact hhs
theorem collectSelector_from (d : Doc E) (H : Hashers) (q : Bool) (atom : Component → E → Bool)
    (hf : Faithful d q atom) (e : E) : ∀ (s : Selector) (x : E) (hs : List Nat),
    s.Sem d.toDom (fun c e => atom c e = true) x → (∀ y, d.Ancestor x y → d.Ancestor e y) →
    (∀ h ∈ hs, FromAncestor d H e h) →
    ∀ h ∈ (collectSelector H q s hs).1, FromAncestor d H e h
  | .mk _ cs, x, hs, hsem, hx, hhs => by
    simp only [Selector.Sem] at hsem
    simp only [collectSelector]
    exact collectList_from d H q atom hf e .skipFirst cs x hs hsem ⟨hx, by simp⟩ hhs
theorem collectList_from (d : Doc E) (H : Hashers) (q : Bool) (atom : Component → E → Bool)
    (hf : Faithful d q atom) (e : E) : ∀ (m : Mode) (cs : List Component) (x : E) (hs : List Nat),
    ComplexSem d.toDom (fun c e => atom c e = true) cs x → At d e m x →
    (∀ h ∈ hs, FromAncestor d H e h) →
    ∀ h ∈ (collectList H q m cs hs).1, FromAncestor d H e h
  | m, [], x, hs, _, _, hhs => by simp only [collectList]; exact hhs
  | m, c :: rest, x, hs, hsem, hx, hhs => by
    have ihc := collectComponent_from d H q atom hf e c x hs
    by_cases hc : ∃ k, c = .combinator k
    · obtain ⟨k, rfl⟩ := hc
      simp only [ComplexSem] at hsem
      obtain ⟨y, hr, hsem⟩ := hsem
      simp only [collectList]
      cases hm : atCombinator m k with
      | none => exact hhs
      | some m' => exact collectList_from d H q atom hf e m' rest y hs hsem (at_step hx hr hm) hhs
    · have hs2 : c.Sem d.toDom (fun c e => atom c e = true) x ∧
          ComplexSem d.toDom (fun c e => atom c e = true) rest x := by
        rw [ComplexSem] at hsem
        · exact hsem
        · intro k hk; exact hc ⟨k, hk⟩
      rw [show collectList H q m (c :: rest) hs = _ from by
        rw [collectList]; intro k hk; exact hc ⟨k, hk⟩]
      split
      · exact collectList_from d H q atom hf e m rest x hs hs2.2 hx hhs
      · rename_i hm
        have hup : d.Ancestor e x := hx.2 (by cases m <;> simp_all)
        have hh := ihc hs2.1 hup hhs
        simp only []
        split
        · exact collectList_from d H q atom hf e .yielding rest x _ hs2.2 ⟨hx.1, fun _ => hup⟩ hh
        · exact hh
end

/-! ## Properties -/

/-- C57. Every hash kept for a selector is that of an ancestor of every element the selector
matches. -/
theorem hashes_from_ancestors (d : Doc E) (H : Hashers) (q : Bool) (atom : Component → E → Bool)
    (hf : Faithful d q atom) (s : Selector) (e : E)
    (hm : s.Sem d.toDom (fun c e => atom c e = true) e) :
    ∀ h ∈ (collectSelector H q s []).1, FromAncestor d H e h :=
  collectSelector_from d H q atom hf e s e [] hm (fun _ h => h) (by simp)

theorem masked_lt (n : Nat) : n &&& bloomHashMask < 2 ^ 24 := by
  rw [show bloomHashMask = 2 ^ 24 - 1 from by decide, Nat.and_two_pow_sub_one_eq_mod]
  omega

theorem mayMatch_of_contains (H : Hashers) (q : Bool) (s : Selector) (bf : Counters)
    (hlt : ∀ h ∈ (collectSelector H q s []).1, h < 2 ^ 24)
    (hc : ∀ h ∈ (collectSelector H q s []).1, mightContain bf h = true) :
    mayMatch (ancestorHashes H q s) bf = true := by
  have hb := (collectSelector_bounded H q s [] (by simp)).1
  unfold ancestorHashes
  generalize (collectSelector H q s []).1 = hs at hlt hc hb
  rcases hs with _ | ⟨a, _ | ⟨b, _ | ⟨c, _ | ⟨n, _ | ⟨x, t⟩⟩⟩⟩⟩
  · simp [mayMatch]
  · simp only [List.mem_cons, List.not_mem_nil, or_false, forall_eq] at hlt hc
    simp [mayMatch, mightContain_mask, hc]
  · simp only [List.mem_cons, List.not_mem_nil, or_false, forall_eq_or_imp, forall_eq] at hlt hc
    simp [mayMatch, mightContain_mask, hc]
  · simp only [List.mem_cons, List.not_mem_nil, or_false, forall_eq_or_imp, forall_eq] at hlt hc
    obtain ⟨la, lb, lc⟩ := hlt
    have hz : ∀ x, x < 2 ^ 24 → (x &&& 0xff000000) = 0 := by
      intro x hx
      rw [show 0xff000000 = 255 <<< 24 from by decide, and_byte, Nat.shiftRight_eq_div_pow]
      have : x / 2 ^ 24 % 256 = 0 := by omega
      rw [this]; rfl
    have : fourthHash (a, b, c) = 0 := by
      unfold fourthHash
      simp only []
      rw [hz a la, hz b lb, hz c lc]; decide
    simp [mayMatch, mightContain_mask, hc, this]
  · simp only [List.mem_cons, List.not_mem_nil, or_false, forall_eq_or_imp, forall_eq] at hlt hc
    obtain ⟨la, lb, lc, ln⟩ := hlt
    obtain ⟨ca, cb, cc, cn⟩ := hc
    obtain ⟨p4, p1, p2, p3⟩ := pack_fourth a b c n la lb lc ln
    simp only [List.length_cons, List.length_nil, if_true, List.getD_cons_zero, List.getD_cons_succ,
      Nat.zero_add, Nat.reduceAdd]
    unfold mayMatch
    simp only [p4, p1, p2, p3, ca, cb, cc, cn]
    simp
  · simp at hb

/-- C57. If the filter holds, after any history of insertions and removals, at least the hashes of
the ancestors of an element, then no selector the element matches is rejected. -/
theorem fast_reject_sound (d : Doc E) (H : Hashers) (q : Bool) (atom : Component → E → Bool)
    (hf : Faithful d q atom) (s : Selector) (e : E)
    (hist : List Op) (l : List Nat) (hv : contents hist = some l)
    (hl : ∀ x h, d.Ancestor e x → d.HasHash H x h → h ∈ l)
    (hm : s.Sem d.toDom (fun c e => atom c e = true) e) :
    mayMatch (ancestorHashes H q s) (run hist) = true := by
  have hfrom := hashes_from_ancestors d H q atom hf s e hm
  apply mayMatch_of_contains
  · intro h hh
    obtain ⟨x, n, _, _, rfl⟩ := hfrom h hh
    exact masked_lt n
  · intro h hh
    obtain ⟨x, n, hx, hn, rfl⟩ := hfrom h hh
    rw [mightContain_mask]
    exact no_false_negatives hist l hv n (hl x n hx hn)

/-- C57, the observable form: matching with the filter gives the answer of the definition. -/
theorem matching_with_filter_correct (d : Doc E) (H : Hashers) (q : Bool)
    (atom : Component → E → Bool) (hf : Faithful d q atom) (s : Selector) (e : E)
    (hist : List Op) (l : List Nat) (hv : contents hist = some l)
    (hl : ∀ x h, d.Ancestor e x → d.HasHash H x h → h ∈ l) :
    matchesWithFilter d.toDom atom H q (run hist) s e = true ↔
      s.Sem d.toDom (fun c e => atom c e = true) e := by
  unfold matchesWithFilter
  constructor
  · intro h
    split at h
    · simp at h
    · exact (matching_correct _ _ _ _).1 h
  · intro h
    rw [fast_reject_sound d H q atom hf s e hist l hv hl h]
    simpa using (matching_correct _ _ _ _).2 h

/-! ### Non-vacuity -/

/-- Five components are collected from `.a > .b ~ .c :is(.d .e) .f .g .h`: sibling compounds are
skipped, the single argument of `:is()` is searched for ancestors, and the fifth is dropped. -/
example :
    let H : Hashers := ⟨fun s => s.foldl (fun n c => 4097 * n + c.toNat) 1, fun _ => 0, fun _ => 0⟩
    let s : Selector := .mk 0 [.cls ['h'], .combinator .descendant, .cls ['g'], .combinator .descendant,
      .cls ['f'], .combinator .descendant, .is [.mk 0 [.cls ['e'], .combinator .descendant, .cls ['d']]],
      .combinator .descendant, .cls ['c'], .combinator .laterSibling, .cls ['b'], .combinator .child,
      .cls ['a']]
    (collectSelector H false s []).1 = [H.ident ['g'], H.ident ['f'], H.ident ['d'], H.ident ['c']] ∧
    mayMatch (ancestorHashes H false s) (run (([['g'], ['f'], ['d'], ['c']].map fun n =>
      .insert (H.ident n)))) = true ∧
    mayMatch (ancestorHashes H false s) (run (([['g'], ['f'], ['d']].map fun n =>
      .insert (H.ident n)))) = false := by
  decide +kernel

/-- A document with a faithful matching of classes. -/
def exampleDoc : Doc Nat where
  toDom := exampleDom
  ids _ := []
  classes e := if e = 3 then [['b']] else []
  localName _ := ['p']
  ns _ := []

/-- The hypotheses are met by a filter holding the ancestors' hashes and an element that matches
`.b > *`. -/
example : ∃ (H : Hashers) (atom : Component → Nat → Bool) (hist : List Op) (l : List Nat),
    Faithful exampleDoc false atom ∧ contents hist = some l ∧
    (∀ x h, exampleDoc.Ancestor 5 x → exampleDoc.HasHash H x h → h ∈ l) ∧
    (Selector.mk 0 [.universal, .combinator .child, .cls ['b']]).Sem exampleDoc.toDom
      (fun c e => atom c e = true) 5 := by
  refine ⟨⟨fun _ => 7, fun _ => 8, fun _ => 9⟩, fun c e => match c with
      | .cls c => decide (c ∈ exampleDoc.classes e) | .universal => true | _ => false,
    [.insert 7, .insert 8, .insert 9], [7, 8, 9], ?_, by decide, ?_, ?_⟩
  · constructor <;> simp
  · intro x h _ hh
    rcases hh with ⟨_, _, rfl⟩ | ⟨_, _, rfl⟩ | rfl | rfl <;> simp
  · simp only [Selector.Sem, ComplexSem, Component.Sem]
    exact ⟨trivial, 3, rfl, by decide, trivial⟩

end Verif.Selectors.FastReject
