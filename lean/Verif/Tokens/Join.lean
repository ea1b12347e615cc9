import Verif.Tokens.Step
/-! Neighbours. -/
namespace Verif.Tokens
open Verif.Modules (isHex isWs isNameStart isName validEscape continues startsIdent hexNumber Reads hexEscape serName serIdent serDigit nameChar hexDigit hexDigit_val
  plain isName_plain not_hex_of_not_plain starts_append reads_serIdent reads_serName serIdent_cases starts_serDigit startsAny nameChar_cases serDigit_cons)

/-! ### Units -/

theorem digit_not_ident {x : Str} (h : startsIdent x = true) : digitAhead x = false ∧ dotDigit x = false := by
  cases x with
  | nil => exact ⟨rfl, rfl⟩
  | cons c t =>
    rcases starts_head h with rfl | rfl | hn
    · exact ⟨rfl, dotDigit_cons (by decide) (by decide)⟩
    · exact ⟨rfl, dotDigit_cons (by decide) (by decide)⟩
    · exact ⟨(nameStart_not hn).1, dotDigit_cons (nameStart_not hn).1 (nameStart_not hn).2.1⟩

theorem numEnd_of_ident {x : Str} (h : startsIdent x = true) (he : takeExp x = (false, [], x)) : NumEnd x := by
  refine ⟨(digit_not_ident h).1, ?_, he⟩
  rintro t rfl
  rcases starts_head h with h | h | h
  · exact absurd h (by decide)
  · exact absurd h (by decide)
  · exact absurd h (by decide)

theorem takeExp_other {c : Char} {t : Str} (h : c ≠ 'e' ∧ c ≠ 'E') : takeExp (c :: t) = (false, [], c :: t) := by
  simp [takeExp, h.1, h.2]

theorem takeSign_other {c : Char} {t : Str} (h1 : c ≠ '-') (h2 : c ≠ '+') : takeSign (c :: t) = (false, c :: t) := by
  rw [takeSign]
  · rintro t e; simp only [List.cons.injEq] at e; exact h1 e.1
  · rintro t e; simp only [List.cons.injEq] at e; exact h2 e.1

/-- The first character of a serialized name. -/
theorem nameChar_head {c : Char} (h0 : c.toNat ≠ 0) : ∃ t, nameChar c = '\\' :: t ∨ (plain c = true ∧ nameChar c = [c]) := by
  rcases nameChar_cases h0 with ⟨hp, e⟩ | ⟨-, h1, e⟩ | ⟨-, h1, e⟩
  · exact ⟨[], .inr ⟨hp, e⟩⟩
  · obtain ⟨ds, e', -⟩ := hexEscape_eq h1
    exact ⟨_, .inl (e.trans e')⟩
  · exact ⟨[c], .inl e⟩

theorem serIdent_e {u : Str} (hn : NoNul u) (hne : u ≠ []) {r t : Str} {c : Char} (h : serIdent u ++ r = c :: t) (hc : c = 'e' ∨ c = 'E') :
    ∃ s, u = c :: s ∧ t = serName s ++ r := by
  rcases serIdent_cases hne with ⟨t, rfl, e⟩ | ⟨rfl, e⟩ | ⟨t, rfl, h1, h2, e⟩ | ⟨h2, e⟩
  · rw [e] at h; simp only [List.cons_append, List.cons.injEq] at h; rcases hc with rfl | rfl <;> exact absurd h.1 (by decide)
  · rw [e] at h; simp only [List.cons_append, List.cons.injEq] at h; rcases hc with rfl | rfl <;> exact absurd h.1 (by decide)
  · rw [e] at h; simp only [List.cons_append, List.cons.injEq] at h; rcases hc with rfl | rfl <;> exact absurd h.1 (by decide)
  · cases u with
    | nil => exact absurd rfl hne
    | cons d s =>
      rw [e, serDigit_cons] at h
      split at h
      · rename_i hd
        obtain ⟨ds, e', -⟩ := hexEscape_eq (Verif.Modules.digit_lt hd)
        rw [e'] at h
        simp only [List.cons_append, List.cons.injEq] at h
        rcases hc with rfl | rfl <;> exact absurd h.1 (by decide)
      · rw [serName, List.flatMap_cons, ← serName] at h
        obtain ⟨x, hx | ⟨-, hx⟩⟩ := nameChar_head (hn d (List.mem_cons_self ..))
        · rw [hx] at h
          simp only [List.cons_append, List.cons.injEq] at h
          rcases hc with rfl | rfl <;> exact absurd h.1 (by decide)
        · rw [hx] at h
          simp only [List.cons_append, List.nil_append, List.cons.injEq] at h
          exact ⟨s, by rw [h.1], h.2.symm⟩

theorem no_exp {c d : Char} {s r : Str} (hd0 : d.toNat ≠ 0) (h1 : d.isDigit = false) (h2 : d ≠ '-') :
    takeExp (c :: (serName (d :: s) ++ r)) = (false, [], c :: (serName (d :: s) ++ r)) := by
  have : digitAhead (takeSign (serName (d :: s) ++ r)).2 = false := by
    rw [serName, List.flatMap_cons, ← serName]
    obtain ⟨x, hx | ⟨hp, hx⟩⟩ := nameChar_head hd0
    · rw [hx, List.cons_append, List.cons_append, takeSign_other (by decide) (by decide)]
      rfl
    · rw [hx, List.cons_append, List.cons_append, takeSign_other h2 (by rintro rfl; exact absurd hp (by decide))]
      exact h1
  simp only [takeExp, this, Bool.and_false, Bool.false_eq_true, if_false]

theorem printUnit_ser {u : Str} (h1 : u ≠ cs!"e") (h2 : u ≠ cs!"E") (h3 : ∀ s, u ≠ 'e' :: '-' :: s) (h4 : ∀ s, u ≠ 'E' :: '-' :: s) : printUnit u = serIdent u := by
  unfold printUnit
  split
  · exact absurd rfl h1
  · exact absurd rfl h2
  · exact absurd rfl (h3 _)
  · exact absurd rfl (h4 _)
  · rfl

theorem unit_front {u : Str} (hn : NoNul u) (hu : unitOk u = true) (r : Str) :
    NumEnd (printUnit u ++ r) ∧ startsIdent (printUnit u ++ r) = true ∧ (continues r = false → takeName (printUnit u ++ r) = (u, r)) := by
  have hne : u ≠ [] := by rintro rfl; cases hu
  by_cases he : u = cs!"e"
  · subst he
    have hs : startsIdent (printUnit cs!"e" ++ r) = true := by simp [printUnit, startsIdent, isNameStart, validEscape]
    refine ⟨numEnd_of_ident hs (takeExp_other (by decide)), hs, fun hr => takeName_reads ?_⟩
    exact Reads.hexSpace ['6', '5'] ' ' r [] r 'e' (by decide) (by decide) (by decide) (by decide) (by decide) (by decide) (.done r hr)
  by_cases he' : ∃ s, u = 'e' :: '-' :: s
  · obtain ⟨s, rfl⟩ := he'
    have e : printUnit ('e' :: '-' :: s) ++ r = '\\' :: '6' :: '5' :: ' ' :: (serName ('-' :: s) ++ r) := by simp [printUnit]
    have hs : startsIdent (printUnit ('e' :: '-' :: s) ++ r) = true := by rw [e]; simp [startsIdent, isNameStart, validEscape]
    refine ⟨numEnd_of_ident hs (by rw [e]; exact takeExp_other (by decide)), hs, fun hr => takeName_reads ?_⟩
    rw [e]
    have := reads_serName (s := '-' :: s) (fun d hd => hn d (by simp at hd ⊢; tauto)) (.done r hr)
    simp only [List.append_nil] at this
    exact Reads.hexSpace ['6', '5'] ' ' _ ('-' :: s) r 'e' (by decide) (by decide) (by decide) (by decide) (by decide) (by decide) this
  have hE : u ≠ cs!"E" := by rintro rfl; exact absurd hu (by decide)
  have hE' : ∀ s, u ≠ 'E' :: '-' :: s := by rintro s rfl; simp [unitOk] at hu
  have hser := printUnit_ser he hE (fun s h => he' ⟨s, h⟩) hE'
  rw [hser]
  have hs := starts_append hn hne r
  refine ⟨numEnd_of_ident hs ?_, hs, fun hr => reads_ident hn hr⟩
  cases hx : serIdent u ++ r with
  | nil => rfl
  | cons c t =>
    by_cases hc : c = 'e' ∨ c = 'E'
    · obtain ⟨s, rfl, rfl⟩ := serIdent_e hn hne hx hc
      cases s with
      | nil => rcases hc with rfl | rfl
               · exact absurd rfl he
               · exact absurd rfl hE
      | cons d s =>
        have hd : d.isDigit = false ∧ d ≠ '-' := by
          rcases hc with rfl | rfl
          · refine ⟨by simpa [unitOk] using hu, ?_⟩
            rintro rfl; exact he' ⟨s, rfl⟩
          · simpa [unitOk] using hu
        exact no_exp (hn d (by simp)) hd.1 hd.2
    · rw [not_or] at hc; exact takeExp_other hc

/-! ### Fronts -/

theorem numEnd_of_after {r : Str} (h1 : startsIdent r = false) (h2 : dotDigit r = false) : NumEnd r := by
  cases r with
  | nil => exact ⟨rfl, by simp, rfl⟩
  | cons c t =>
    have hc : c ≠ 'e' ∧ c ≠ 'E' := by
      constructor <;> (rintro rfl; exact absurd h1 (by simp [startsIdent, isNameStart]))
    by_cases hd : c = '.'
    · subst hd
      exact ⟨rfl, by rintro t' e; simp only [List.cons.injEq, true_and] at e; rw [← e]; exact h2, takeExp_other hc⟩
    · refine ⟨?_, by rintro t' e; simp only [List.cons.injEq] at e; exact absurd e.1 hd, takeExp_other hc⟩
      unfold dotDigit at h2
      split at h2
      · rename_i e; simp only [List.cons.injEq] at e; exact absurd e.1 hd
      · exact h2

/-- What the text of a token begins with. -/
inductive Front (u : Token) (r x : Str) : Prop
  | name : (kind u).isNameLike = true → startsIdent x = true → Front u r x
  | number : (kind u).isNumeric = true → startsNumber x = true → Front u r x
  | cdc (t) : u = .cdc → x = '-' :: '-' :: t → Front u r x
  | delim (c) : u = .delim c → delimOk c = true → ownToken c = false → x = c :: r → Front u r x
  | other (c t) : x = c :: t → c ∈ cs!"@#\"/:;,~|^$*<([{)]} \n\t" → (c = '(' → u = .openParen) → (c = '*' → u = .substringMatch) → Front u r x

theorem ws_mem {c : Char} (h : isWs c = true) : c = '\n' ∨ c = '\t' ∨ c = ' ' := by
  simpa [isWs, or_assoc] using h

theorem front (m : Bool) {u : Token} {r : Str} (hok : Ok u) (hc : m = true → ∀ s, u ≠ .comment s) (ha : After u r) : Front u r (printToken m u ++ r) := by
  cases u with
  | ident s => exact .name rfl (starts_append hok.1 hok.2 _)
  | atKeyword s => exact .other '@' _ rfl (by decide) (fun h => absurd h (by decide)) (fun h => absurd h (by decide))
  | hash s => exact .other '#' _ rfl (by decide) (fun h => absurd h (by decide)) (fun h => absurd h (by decide))
  | idHash s => exact .other '#' _ rfl (by decide) (fun h => absurd h (by decide)) (fun h => absurd h (by decide))
  | string s => exact .other '"' _ rfl (by decide) (fun h => absurd h (by decide)) (fun h => absurd h (by decide))
  | url s => exact .name rfl (by simp [printToken, startsIdent, isNameStart])
  | func s => exact .name rfl (by rw [printToken, List.append_assoc]; exact starts_append hok.1 hok.2 _)
  | delim c => exact .delim c rfl hok.1 hok.2 rfl
  | number n => exact .number rfl (printNumber_read hok (numEnd_of_after ha.1 ha.2.2)).1
  | dimension n unit => exact .number rfl (printDimension_read hok.1 hok.2.1 (unit_front hok.2.2.1 hok.2.2.2 r).1).1
  | percentage plus dotZero n =>
    refine .number rfl ?_
    rw [printToken, List.append_assoc]
    exact (writeNumeric_read hok ⟨rfl, by simp, takeExp_other (by decide)⟩).1
  | ws s =>
    cases m with
    | true => exact .other ' ' _ rfl (by decide) (fun h => absurd h (by decide)) (fun h => absurd h (by decide))
    | false =>
      cases s with
      | nil => exact absurd rfl hok.1
      | cons c s =>
        rcases ws_mem (hok.2 c (List.mem_cons_self ..)) with rfl | rfl | rfl <;> exact .other _ _ rfl (by decide) (fun h => absurd h (by decide)) (fun h => absurd h (by decide))
  | comment s =>
    cases m with
    | true => exact absurd rfl (hc rfl s)
    | false => exact .other '/' _ rfl (by decide) (fun h => absurd h (by decide)) (fun h => absurd h (by decide))
  | colon => exact .other ':' _ rfl (by decide) (fun h => absurd h (by decide)) (fun h => absurd h (by decide))
  | semicolon => exact .other ';' _ rfl (by decide) (fun h => absurd h (by decide)) (fun h => absurd h (by decide))
  | comma => exact .other ',' _ rfl (by decide) (fun h => absurd h (by decide)) (fun h => absurd h (by decide))
  | includeMatch => exact .other '~' _ rfl (by decide) (fun h => absurd h (by decide)) (fun h => absurd h (by decide))
  | dashMatch => exact .other '|' _ rfl (by decide) (fun h => absurd h (by decide)) (fun h => absurd h (by decide))
  | prefixMatch => exact .other '^' _ rfl (by decide) (fun h => absurd h (by decide)) (fun h => absurd h (by decide))
  | suffixMatch => exact .other '$' _ rfl (by decide) (fun h => absurd h (by decide)) (fun h => absurd h (by decide))
  | substringMatch => exact .other '*' _ rfl (by decide) (by decide) (fun _ => rfl)
  | cdo => exact .other '<' _ rfl (by decide) (fun h => absurd h (by decide)) (fun h => absurd h (by decide))
  | cdc => exact .cdc _ rfl rfl
  | openParen => exact .other '(' _ rfl (by decide) (fun _ => rfl) (by decide)
  | openSquare => exact .other '[' _ rfl (by decide) (fun h => absurd h (by decide)) (fun h => absurd h (by decide))
  | openCurly => exact .other '{' _ rfl (by decide) (fun h => absurd h (by decide)) (fun h => absurd h (by decide))
  | closeParen => exact .other ')' _ rfl (by decide) (fun h => absurd h (by decide)) (fun h => absurd h (by decide))
  | closeSquare => exact .other ']' _ rfl (by decide) (fun h => absurd h (by decide)) (fun h => absurd h (by decide))
  | closeCurly => exact .other '}' _ rfl (by decide) (fun h => absurd h (by decide)) (fun h => absurd h (by decide))

/-- A character that ends any name and is no part of a number. -/
theorem continues_cons {c : Char} {t : Str} (h1 : isName c = false) (h2 : c ≠ '\\') : continues (c :: t) = false := by
  have : validEscape (c :: t) = false := by
    rw [← Bool.not_eq_true]; intro h; exact h2 (validEscape_cons h)
  simp [continues, this, h1]

theorem starts_of_continues {x : Str} (h : continues x = false) : startsIdent x = false ∧ startsIdent ('-' :: x) = false := by
  constructor
  · rw [← Bool.not_eq_true]; intro h'; rw [continues_of_starts h'] at h; cases h
  · simp only [continues, Bool.or_eq_false_iff] at h
    simp only [startsIdent, h.1, Bool.or_false]
    cases x with
    | nil => rfl
    | cons c t =>
      have := h.2
      simp only [isName, Bool.or_eq_false_iff] at this
      simp only [this.1.1, Bool.false_or]
      exact this.2

theorem others {c : Char} (h : c ∈ cs!"@#\"/:;,~|^$*<([{)]} \n\t") : isName c = false ∧ c ≠ '\\' ∧ c.isDigit = false ∧ c ≠ '.' ∧ c ≠ '%' ∧ c ≠ '>' ∧ c ≠ '!' := by
  have : ∀ c ∈ cs!"@#\"/:;,~|^$*<([{)]} \n\t", isName c = false ∧ c ≠ '\\' ∧ c.isDigit = false ∧ c ≠ '.' ∧ c ≠ '%' ∧ c ≠ '>' ∧ c ≠ '!' := by decide
  exact this c h

theorem delim_facts {c : Char} (h : delimOk c = true) (h' : ownToken c = false) (hd : c ≠ '-') : isName c = false ∧ c ≠ '\\' ∧ c.isDigit = false := by
  have h1 : isName c = false := by simpa [delimOk, hd] using h
  refine ⟨h1, ?_, ?_⟩
  · rintro rfl; exact absurd h' (by decide)
  · simp only [isName, Bool.or_eq_false_iff] at h1; exact h1.1.2

/-- Kinds of delimiters. -/
theorem kind_delim (c : Char) : kind (.delim c) = if c = '*' then .star else .delim c := by
  unfold kind
  split <;> simp_all

section
variable {u : Token} {r x : Str}

theorem Front.continues (f : Front u r x) (h1 : (kind u).isNameLike = false) (h2 : (kind u).isNumeric = false) (h3 : kind u ≠ .cdc) (h4 : kind u ≠ .delim '-') :
    continues x = false := by
  cases f with
  | name h => rw [h] at h1; cases h1
  | number h => rw [h] at h2; cases h2
  | cdc t e => subst e; exact absurd rfl h3
  | delim c e a b hx =>
    subst e
    have hc : c ≠ '-' := by rintro rfl; exact h4 rfl
    rw [hx]
    exact continues_cons (delim_facts a b hc).1 (delim_facts a b hc).2.1
  | other c t hx hc => rw [hx]; exact continues_cons (others hc).1 (others hc).2.1

theorem Front.starts (f : Front u r x) (ha : After u r) (h1 : (kind u).isNameLike = false) (h3 : kind u ≠ .cdc) : startsIdent x = false := by
  cases f with
  | name h => rw [h] at h1; cases h1
  | number _ h => rw [← Bool.not_eq_true]; intro h'; rw [not_number_of_ident h'] at h; cases h
  | cdc t e => subst e; exact absurd rfl h3
  | delim c e a b hx =>
    subst e
    rw [hx]
    by_cases hc : c = '-'
    · subst hc; exact (ha.2.2.1 rfl).2
    · exact (starts_of_continues (continues_cons (delim_facts a b hc).1 (delim_facts a b hc).2.1)).1
  | other c t hx hc => rw [hx]; exact (starts_of_continues (continues_cons (others hc).1 (others hc).2.1)).1

theorem Front.dotDigit (f : Front u r x) (ha : After u r) (h1 : (kind u).isNumeric = false) : dotDigit x = false ∧ digitAhead x = false := by
  cases f with
  | name _ h => exact ⟨(digit_not_ident h).2, (digit_not_ident h).1⟩
  | number h => rw [h] at h1; cases h1
  | cdc t e hx => rw [hx]; exact ⟨dotDigit_cons (by decide) (by decide), rfl⟩
  | delim c e a b hx =>
    subst e
    rw [hx]
    have hd : c.isDigit = false := by
      by_cases hc : c = '-'
      · subst hc; rfl
      · exact (delim_facts a b hc).2.2
    by_cases hc : c = '.'
    · subst hc; exact ⟨ha.2.2.2.1 rfl, rfl⟩
    · exact ⟨dotDigit_cons hd hc, hd⟩
  | other c t hx hc => rw [hx]; exact ⟨dotDigit_cons (others hc).2.2.1 (others hc).2.2.2.1, (others hc).2.2.1⟩

theorem Front.head (f : Front u r x) {c : Char} (hc : c ∈ cs!"(%*>!") (h : x.head? = some c) :
    (c = '(' ∧ u = .openParen) ∨ u = .delim c ∨ (c = '*' ∧ u = .substringMatch) := by
  have nn : ∀ c ∈ cs!"(%*>!", c ≠ '-' ∧ c ≠ '\\' ∧ isNameStart c = false ∧ c.isDigit = false ∧ c ≠ '.' ∧ c ≠ '+' := by decide
  have nc := nn c hc
  cases x with
  | nil => simp at h
  | cons d t =>
    simp only [List.head?_cons, Option.some.injEq] at h
    subst h
    cases f with
    | name _ h =>
      rcases starts_head h with h | h | h
      · exact absurd h nc.1
      · exact absurd h nc.2.1
      · rw [nc.2.2.1] at h; cases h
    | number _ h =>
      simp [startsNumber, nc] at h
    | cdc t e hx => simp only [List.cons.injEq] at hx; exact absurd hx.1 nc.1
    | delim c e a b hx => simp only [List.cons.injEq] at hx; rw [hx.1]; exact .inr (.inl e)
    | other c t hx ho h1 h2 =>
      simp only [List.cons.injEq] at hx
      obtain ⟨rfl, -⟩ := hx
      have := others ho
      have hm : d = '(' ∨ d = '*' := by
        have : ∀ d ∈ cs!"(%*>!", d = '(' ∨ d = '%' ∨ d = '*' ∨ d = '>' ∨ d = '!' := by decide
        rcases this d hc with h | h | h | h | h <;> simp_all
      rcases hm with rfl | rfl
      · exact .inl ⟨rfl, h1 rfl⟩
      · exact .inr (.inr ⟨rfl, h2 rfl⟩)
end

/-- Neighbours that do not run together do not: the text after a token is as it must be. -/
theorem after_of (m : Bool) {t u : Token} {r : Str} (hu : Ok u) (hc : m = true → ∀ s, u ≠ .comment s) (ha : After u r)
    (hr : runsTogether (kind t) (kind u) = false) (hd : ¬ (t = .ident cs!"--" ∧ u = .delim '>'))
    (hq : needsQuote t = true → quoteAhead (printToken m u ++ r) = true) : After t (printToken m u ++ r) := by
  have f := front m hu hc ha
  generalize printToken m u ++ r = x at f hq
  have hname : (kind u).isNameLike = false → (kind u).isNumeric = false → kind u ≠ .cdc → kind u ≠ .delim '-' → continues x = false := f.continues
  have hat : ∀ t', t = t' → runsTogether (kind t') (kind u) = ((kind u).isNameLike || (kind u).isNumeric || decide (kind u = .cdc) || decide (kind u = .delim '-')) →
      continues x = false := by
    rintro t' rfl e
    rw [hr] at e
    have e := e.symm
    simp only [Bool.or_eq_false_iff, decide_eq_false_iff_not] at e
    exact hname e.1.1.1 e.1.1.2 e.1.2 e.2
  cases t with
  | ident s =>
    have h : ((kind u).isNameLike || (kind u).isNumeric || decide (kind u = .cdc) || decide (kind u = .delim '-') || decide (kind u = .paren)) = false := hr
    simp only [Bool.or_eq_false_iff, decide_eq_false_iff_not] at h
    obtain ⟨⟨⟨⟨h1, h2⟩, h3⟩, h4⟩, h5⟩ := h
    refine ⟨hname h1 h2 h3 h4, fun e => ?_, ?_⟩
    · rcases f.head (by decide) e with ⟨-, rfl⟩ | rfl | ⟨h, -⟩
      · exact h5 rfl
      · exact absurd hu.2 (by decide)
      · exact absurd h (by decide)
    · rintro ⟨rfl, e⟩
      rcases f.head (by decide) e with ⟨h, -⟩ | rfl | ⟨h, -⟩
      · exact absurd h (by decide)
      · exact hd ⟨rfl, rfl⟩
      · exact absurd h (by decide)
  | atKeyword s => exact hat _ rfl rfl
  | hash s => exact hat _ rfl rfl
  | idHash s => exact hat _ rfl rfl
  | dimension n s => exact hat _ rfl rfl
  | number n =>
    have h : ((kind u).isNameLike || (kind u).isNumeric || decide (kind u = .cdc) || decide (kind u = .delim '%')) = false := hr
    simp only [Bool.or_eq_false_iff, decide_eq_false_iff_not] at h
    obtain ⟨⟨⟨h1, h2⟩, h3⟩, h4⟩ := h
    refine ⟨f.starts ha h1 h3, fun e => ?_, (f.dotDigit ha h2).1⟩
    rcases f.head (by decide) e with ⟨h, -⟩ | rfl | ⟨h, -⟩
    · exact absurd h (by decide)
    · exact h4 rfl
    · exact absurd h (by decide)
  | func s => exact hq
  | delim c =>
    rw [kind_delim] at hr
    refine ⟨?_, ?_, ?_, ?_, ?_, ?_, ?_⟩
    · rintro rfl; exact hat _ rfl rfl
    · rintro rfl
      exact (f.dotDigit ha (by simpa [runsTogether] using hr)).1
    · rintro rfl
      have h : ((kind u).isNameLike || (kind u).isNumeric || decide (kind u = .cdc) || decide (kind u = .delim '-')) = false := hr
      simp only [Bool.or_eq_false_iff, decide_eq_false_iff_not] at h
      exact ⟨(f.dotDigit ha h.1.1.2).1, (starts_of_continues (hname h.1.1.1 h.1.1.2 h.1.2 h.2)).2⟩
    · rintro rfl
      exact (f.dotDigit ha (by simpa [runsTogether] using hr)).2
    · rintro rfl e
      have h : decide (kind u = .delim '!') = false := hr
      have : x.head? = some '!' := by
        cases x with
        | nil => simp at e
        | cons a x => simp only [List.take_succ_cons, List.cons.injEq] at e; rw [e.1]; rfl
      rcases f.head (by decide) this with ⟨h, -⟩ | rfl | ⟨h, -⟩
      · exact absurd h (by decide)
      · exact absurd h (by decide)
      · exact absurd h (by decide)
    · rintro rfl
      have h : ((kind u).isNameLike || decide (kind u = .cdc)) = false := hr
      simp only [Bool.or_eq_false_iff, decide_eq_false_iff_not] at h
      exact f.starts ha h.1 h.2
    · rintro rfl e
      have h : decide (kind u = .star) = false := hr
      rcases f.head (by decide) e with ⟨h, -⟩ | rfl | ⟨-, rfl⟩
      · exact absurd h (by decide)
      · exact absurd h (by decide)
      · exact absurd h (by decide)
  | _ => trivial
end Verif.Tokens
