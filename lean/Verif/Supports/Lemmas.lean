import Verif.Supports.Spec
namespace Verif.Supports
open Verif.Targets

/-! ### Equality -/
mutual
theorem Tok.beq_iff : ∀ a b : Tok, Tok.beq a b = true ↔ a = b
  | .ident a, .ident b => by simp [Tok.beq]
  | .colon, .colon => by simp [Tok.beq]
  | .other a, .other b => by simp [Tok.beq]
  | .func n a, .func m b => by simp [Tok.beq, Tok.beqList_iff a b]
  | .paren a, .paren b => by simp [Tok.beq, Tok.beqList_iff a b]
  | .ident _, .colon | .ident _, .other _ | .ident _, .func _ _ | .ident _, .paren _
  | .colon, .ident _ | .colon, .other _ | .colon, .func _ _ | .colon, .paren _
  | .other _, .ident _ | .other _, .colon | .other _, .func _ _ | .other _, .paren _
  | .func _ _, .ident _ | .func _ _, .colon | .func _ _, .other _ | .func _ _, .paren _
  | .paren _, .ident _ | .paren _, .colon | .paren _, .other _ | .paren _, .func _ _ => by simp [Tok.beq]
theorem Tok.beqList_iff : ∀ a b : List Tok, Tok.beqList a b = true ↔ a = b
  | [], [] => by simp [Tok.beqList]
  | [], _ :: _ | _ :: _, [] => by simp [Tok.beqList]
  | a :: as, b :: bs => by simp [Tok.beqList, Tok.beq_iff a b, Tok.beqList_iff as bs]
end

mutual
theorem Cond.beq_iff : ∀ a b : Cond, Cond.beq a b = true ↔ a = b
  | .not a, .not b => by simp [Cond.beq, Cond.beq_iff a b]
  | .and a, .and b => by simp [Cond.beq, Cond.beqList_iff a b]
  | .or a, .or b => by simp [Cond.beq, Cond.beqList_iff a b]
  | .decl p v, .decl q w => by simp [Cond.beq, Tok.beqList_iff]
  | .selector a, .selector b => by simp [Cond.beq, Tok.beqList_iff]
  | .unknown a, .unknown b => by simp [Cond.beq, Tok.beq_iff]
  | .not _, .and _ | .not _, .or _ | .not _, .decl _ _ | .not _, .selector _ | .not _, .unknown _
  | .and _, .not _ | .and _, .or _ | .and _, .decl _ _ | .and _, .selector _ | .and _, .unknown _
  | .or _, .not _ | .or _, .and _ | .or _, .decl _ _ | .or _, .selector _ | .or _, .unknown _
  | .decl _ _, .not _ | .decl _ _, .and _ | .decl _ _, .or _ | .decl _ _, .selector _ | .decl _ _, .unknown _
  | .selector _, .not _ | .selector _, .and _ | .selector _, .or _ | .selector _, .decl _ _ | .selector _, .unknown _
  | .unknown _, .not _ | .unknown _, .and _ | .unknown _, .or _ | .unknown _, .decl _ _ | .unknown _, .selector _ =>
    by simp [Cond.beq]
theorem Cond.beqList_iff : ∀ a b : List Cond, Cond.beqList a b = true ↔ a = b
  | [], [] => by simp [Cond.beqList]
  | [], _ :: _ | _ :: _, [] => by simp [Cond.beqList]
  | a :: as, b :: bs => by simp [Cond.beqList, Cond.beq_iff a b, Cond.beqList_iff as bs]
end

theorem containsCond_iff (cs : List Cond) (b : Cond) : containsCond cs b = true ↔ b ∈ cs := by
  unfold containsCond
  rw [List.any_eq_true]
  constructor
  · rintro ⟨c, hc, h⟩; rw [Cond.beq_iff] at h; exact h ▸ hc
  · intro h; exact ⟨b, h, (Cond.beq_iff _ _).2 rfl⟩

theorem evalAll_iff (b : Browser) (cs : List Cond) : Cond.evalAll b cs = true ↔ ∀ c ∈ cs, c.eval b = true := by
  induction cs with
  | nil => simp [Cond.evalAll]
  | cons c cs ih => simp [Cond.evalAll, ih]

theorem evalAny_iff (b : Browser) (cs : List Cond) : Cond.evalAny b cs = true ↔ ∃ c ∈ cs, c.eval b = true := by
  induction cs with
  | nil => simp [Cond.evalAny]
  | cons c cs ih => simp [Cond.evalAny, ih]

theorem evalAll_append (b : Browser) (cs ds : List Cond) :
    Cond.evalAll b (cs ++ ds) = (Cond.evalAll b cs && Cond.evalAll b ds) := by
  induction cs with
  | nil => simp [Cond.evalAll]
  | cons c cs ih => simp [Cond.evalAll, ih, Bool.and_assoc]

theorem evalAny_append (b : Browser) (cs ds : List Cond) :
    Cond.evalAny b (cs ++ ds) = (Cond.evalAny b cs || Cond.evalAny b ds) := by
  induction cs with
  | nil => simp [Cond.evalAny]
  | cons c cs ih => simp [Cond.evalAny, ih, Bool.or_assoc]

/-! ### Printed text -/

theorem textAnds_append (b : Browser) (xs ys : List Tok) (v w : Bool) (hx : textAnds b xs = some v)
    (hy : textAnds b ys = some w) : textAnds b (xs ++ ys) = some (v && w) := by
  match xs with
  | [] => simp [textAnds] at hx; subst hx; simpa using hy
  | [_] => rename_i t; cases t <;> simp [textAnds] at hx
  | t :: x :: rest =>
    cases t <;> try (simp [textAnds] at hx; done)
    next k =>
    simp only [List.cons_append]
    rw [textAnds] at hx ⊢
    split at hx
    · next hk =>
      rw [if_pos hk]
      cases hi : textInParens b x with
      | none => simp [hi] at hx
      | some a =>
        cases hr : textAnds b rest with
        | none => simp [hi, hr] at hx
        | some c =>
          simp [hi, hr] at hx
          rw [textAnds_append b rest ys c w hr hy]
          simp [← hx, Bool.and_assoc]
    · simp at hx

theorem textOrs_append (b : Browser) (xs ys : List Tok) (v w : Bool) (hx : textOrs b xs = some v)
    (hy : textOrs b ys = some w) : textOrs b (xs ++ ys) = some (v || w) := by
  match xs with
  | [] => simp [textOrs] at hx; subst hx; simpa using hy
  | [_] => rename_i t; cases t <;> simp [textOrs] at hx
  | t :: x :: rest =>
    cases t <;> try (simp [textOrs] at hx; done)
    next k =>
    simp only [List.cons_append]
    rw [textOrs] at hx ⊢
    split at hx
    · next hk =>
      rw [if_pos hk]
      cases hi : textInParens b x with
      | none => simp [hi] at hx
      | some a =>
        cases hr : textOrs b rest with
        | none => simp [hi, hr] at hx
        | some c =>
          simp [hi, hr] at hx
          rw [textOrs_append b rest ys c w hr hy]
          simp [← hx, Bool.or_assoc]
    · simp at hx

/-- A chain `X [kw X]*` for operator `o`. -/
def Chain (b : Browser) (o : Op) (ts : List Tok) (v : Bool) : Prop :=
  ∃ x rest v1 v2, ts = x :: rest ∧ textInParens b x = some v1 ∧
    match o with
    | .and => textAnds b rest = some v2 ∧ v = (v1 && v2)
    | .or => textOrs b rest = some v2 ∧ v = (v1 || v2)

/-- The rest of a chain. -/
def ChainRest (b : Browser) (o : Op) (ts : List Tok) (v : Bool) : Prop :=
  match o with
  | .and => textAnds b ts = some v
  | .or => textOrs b ts = some v

/-- The value of an operator. -/
def Op.apply : Op → Bool → Bool → Bool
  | .and, a, b => a && b
  | .or, a, b => a || b

/-- Its neutral element. -/
def Op.unit : Op → Bool
  | .and => true
  | .or => false

theorem chain_single (b : Browser) (o : Op) (x : Tok) (v : Bool) (h : textInParens b x = some v) : Chain b o [x] v := by
  cases o
  · exact ⟨x, [], v, true, rfl, h, by simp [textAnds], by simp⟩
  · exact ⟨x, [], v, false, rfl, h, by simp [textOrs], by simp⟩

theorem chain_append (b : Browser) (o : Op) (ts rs : List Tok) (v w : Bool) (h : Chain b o ts v)
    (hr : ChainRest b o rs w) : Chain b o (ts ++ rs) (o.apply v w) := by
  obtain ⟨x, rest, v1, v2, rfl, hx, ht⟩ := h
  cases o
  · exact ⟨x, rest ++ rs, v1, v2 && w, rfl, hx, textAnds_append b rest rs v2 w ht.1 hr, by simp [ht.2, Op.apply, Bool.and_assoc]⟩
  · exact ⟨x, rest ++ rs, v1, v2 || w, rfl, hx, textOrs_append b rest rs v2 w ht.1 hr, by simp [ht.2, Op.apply, Bool.or_assoc]⟩

theorem chain_rest (b : Browser) (o : Op) (ts : List Tok) (v : Bool) (h : Chain b o ts v) :
    ChainRest b o (.ident o.kw :: ts) v := by
  obtain ⟨x, rest, v1, v2, rfl, hx, ht⟩ := h
  cases o
  · show textAnds b _ = _
    rw [textAnds, if_pos (by decide), hx, ht.1, ht.2]
  · show textOrs b _ = _
    rw [textOrs, if_pos (by decide), hx, ht.1, ht.2]

theorem chainRest_append (b : Browser) (o : Op) (ts rs : List Tok) (v w : Bool) (h : ChainRest b o ts v)
    (hr : ChainRest b o rs w) : ChainRest b o (ts ++ rs) (o.apply v w) := by
  cases o
  · exact textAnds_append b ts rs v w h hr
  · exact textOrs_append b ts rs v w h hr

theorem textInParens_ident (b : Browser) (s : Str) : textInParens b (.ident s) = none := by rw [textInParens] <;> simp

theorem textInParens_cases (b : Browser) (x : Tok) (v : Bool) (h : textInParens b x = some v) :
    (∃ ts, x = .paren ts) ∨ ∃ f ts, x = .func f ts := by
  cases x <;> simp [textInParens] at h ⊢

theorem chain_cond (b : Browser) (o : Op) (ts : List Tok) (v : Bool) (h : Chain b o ts v) : textCond b ts = some v := by
  obtain ⟨x, rest, v1, v2, rfl, hx, ht⟩ := h
  match rest with
  | [] =>
    rw [textCond, hx]
    cases o
    · simp [textAnds] at ht; obtain ⟨h1, h2⟩ := ht; subst h1; subst h2; simp
    · simp [textOrs] at ht; obtain ⟨h1, h2⟩ := ht; subst h1; subst h2; simp
  | r :: rest =>
    have : textCond b (x :: r :: rest) = match textInParens b x with
        | none => none
        | some v =>
          match textAnds b (r :: rest) with
          | some w => some (v && w)
          | none => (textOrs b (r :: rest)).map (v || ·) := by
      rcases textInParens_cases b x v1 hx with ⟨us, rfl⟩ | ⟨f, us, rfl⟩ <;> simp only [textCond] <;> rfl
    rw [this, hx]
    dsimp only
    cases o
    · rw [ht.1, ht.2]
    · have hn : textAnds b (r :: rest) = none := by
        have h1 := ht.1
        match r, rest with
        | .ident k, x' :: rest' =>
          rw [textOrs] at h1
          split at h1
          · next hk => rw [textAnds, if_neg (by rw [hk]; decide)]
          · simp at h1
        | .ident _, [] => rw [textAnds] <;> simp
        | .colon, _ | .other _, _ | .func _ _, _ | .paren _, _ => rw [textAnds] <;> simp
      rw [hn, ht.1, ht.2]
      rfl

theorem textInParens_paren (b : Browser) (ts : List Tok) (v : Bool) (h : textCond b ts = some v) :
    textInParens b (.paren ts) = some v := by
  unfold textInParens
  rw [h]

theorem textCond_decl (b : Browser) (n : Str) (v : List Tok) : textCond b (.ident n :: .colon :: v) = none := by
  rw [textCond]
  split
  · simp [textInParens]
  · rfl

theorem textInParens_decl (b : Browser) (name : Str) (v : List Tok) (p : Prefix) :
    textInParens b (.paren (declToks name v p)) = some (b.decl (canonical (prefixStr p ++ name)) v) := by
  unfold declToks
  rw [textInParens, textCond_decl]

theorem chain_declList (b : Browser) (name : Str) (v : List Tok) : ∀ (ps : List Prefix) (_ : ps ≠ []),
    Chain b .or (declList name v ps) (ps.any fun p => b.decl (canonical (prefixStr p ++ name)) v) := by
  intro ps
  induction ps with
  | nil => intro h; exact absurd rfl h
  | cons p ps ih =>
    intro _
    cases ps with
    | nil =>
      simp only [declList, List.any_cons, List.any_nil, Bool.or_false]
      exact chain_single b .or _ _ (textInParens_decl b name v p)
    | cons q qs =>
      simp only [declList]
      rw [List.any_cons]
      have h1 := chain_single b .or _ _ (textInParens_decl b name v p)
      exact chain_append b .or _ _ _ _ h1 (chain_rest b .or _ _ (ih (by simp)))

theorem printDecl_text (b : Browser) (p : PropId) (v : List Tok) :
    textInParens b (printDecl p v) = some (b.anyPrefix p v) := by
  have key : ∀ s : PrefixSet, s ≠ .empty →
      ((flagsOf s).any fun q => b.decl (canonical (prefixStr q ++ p.name)) v) =
      ((s.none && b.decl (canonical p.name) v) || (s.webkit && b.decl (canonical (cs!"-webkit-" ++ p.name)) v) ||
      (s.moz && b.decl (canonical (cs!"-moz-" ++ p.name)) v) || (s.ms && b.decl (canonical (cs!"-ms-" ++ p.name)) v) ||
      (s.o && b.decl (canonical (cs!"-o-" ++ p.name)) v)) := by
    intro s hs
    have e0 : prefixStr .none ++ p.name = p.name := rfl
    have e1 : prefixStr .webkit = cs!"-webkit-" := rfl
    have e2 : prefixStr .moz = cs!"-moz-" := rfl
    have e3 : prefixStr .ms = cs!"-ms-" := rfl
    have e4 : prefixStr .o = cs!"-o-" := rfl
    unfold flagsOf
    simp only [List.filter_cons, List.filter_nil, PrefixSet.has]
    generalize h0 : b.decl (canonical p.name) v = d0
    generalize h1 : b.decl (canonical (cs!"-webkit-" ++ p.name)) v = d1
    generalize h2 : b.decl (canonical (cs!"-moz-" ++ p.name)) v = d2
    generalize h3 : b.decl (canonical (cs!"-ms-" ++ p.name)) v = d3
    generalize h4 : b.decl (canonical (cs!"-o-" ++ p.name)) v = d4
    rw [← e1] at h1
    rw [← e2] at h2
    rw [← e3] at h3
    rw [← e4] at h4
    rw [← e0] at h0
    cases s.none <;> cases s.webkit <;> cases s.moz <;> cases s.ms <;> cases s.o <;>
      simp only [h0, h1, h2, h3, h4, if_true, Bool.false_eq_true, if_false, List.any_cons, List.any_nil, Bool.true_and,
        Bool.false_and, Bool.or_false, Bool.false_or] <;>
      cases d0 <;> cases d1 <;> cases d2 <;> cases d3 <;> cases d4 <;> rfl
  unfold printDecl Browser.anyPrefix PropId.pre
  cases hv : p.vp with
  | none =>
    simp only [Option.getD_none]
    rw [if_pos (by decide)]
    exact textInParens_decl b p.name v .none
  | some s =>
    simp only [Option.getD_some]
    by_cases hs : s = .empty
    · subst hs
      rw [if_pos (by decide), if_pos rfl]
      exact textInParens_decl b p.name v .none
    · have ho : orNone s = s := by simp [orNone, hs]
      rw [ho, if_neg hs]
      by_cases hn : s = Prefix.none.set
      · subst hn
        rw [if_pos rfl, textInParens_decl]
        simp [Prefix.set, prefixStr]
      · rw [if_neg hn, ← key s hs]
        have hne : flagsOf s ≠ [] := by
          obtain ⟨a, c, d, e, f⟩ := s
          cases a <;> cases c <;> cases d <;> cases e <;> cases f <;> first | exact absurd rfl hs | decide
        exact textInParens_paren b _ _ (chain_cond b .or _ _ (chain_declList b p.name v _ hne))

mutual
theorem print_text (b : Browser) (c : Cond) (h : c.WF) : textCond b c.print = some (c.eval b) := by
  match c with
  | .not c =>
    rw [Cond.print, Cond.eval]
    simp only [Cond.WF] at h
    obtain ⟨x, hx, hv⟩ := item_single b none c h (by cases c <;> simp [Cond.needsParens])
    rw [hx, textCond, if_pos ⟨by decide, rfl⟩, hv]
    rfl
  | .and cs =>
    simp only [Cond.WF] at h
    rw [Cond.print, Cond.eval]
    exact chain_cond b .and _ _ (printItems_text b .and cs h.1 h.2)
  | .or cs =>
    simp only [Cond.WF] at h
    rw [Cond.print, Cond.eval]
    exact chain_cond b .or _ _ (printItems_text b .or cs h.1 h.2)
  | .decl p v => rw [Cond.print, Cond.eval, textCond, printDecl_text]
  | .selector ts =>
    rw [Cond.print, Cond.eval, textCond, textInParens, if_pos (by decide)]
  | .unknown t =>
    simp only [Cond.WF] at h
    rw [Cond.print, Cond.eval, textCond, h b]
termination_by (sizeOf c, 0)
/-- An item that is not a chain of the same operator prints as one token. -/
theorem item_single (b : Browser) (o : Option Op) (c : Cond) (h : c.WF)
    (ho : c.needsParens o = true ∨ ∀ o', c.needsParens o' = false) :
    ∃ x, parensIf (c.needsParens o) c.print = [x] ∧ textInParens b x = some (c.eval b) := by
  rcases ho with ho | ho
  · rw [ho]
    exact ⟨_, rfl, textInParens_paren b _ _ (print_text b c h)⟩
  · rw [ho o]
    have hc := print_text b c h
    match c with
    | .not _ => exact absurd (ho none) (by simp [Cond.needsParens])
    | .and _ => exact absurd (ho none) (by simp [Cond.needsParens])
    | .or _ => exact absurd (ho none) (by simp [Cond.needsParens])
    | .decl p v => exact ⟨_, rfl, by rw [printDecl_text]; rfl⟩
    | .selector ts => exact ⟨_, rfl, by rw [textInParens, if_pos (by decide)]; rfl⟩
    | .unknown t => exact ⟨_, rfl, by simp only [Cond.WF] at h; rw [h b]; rfl⟩
termination_by (sizeOf c, 1)
theorem item_chain (b : Browser) (o : Op) (c : Cond) (h : c.WF) :
    Chain b o (parensIf (c.needsParens (some o)) c.print) (c.eval b) := by
  by_cases hs : c.needsParens (some o) = true ∨ ∀ o', c.needsParens o' = false
  · obtain ⟨x, hx, hv⟩ := item_single b (some o) c h hs
    rw [hx]
    exact chain_single b o x _ hv
  · match c with
    | .not _ => exact absurd (.inl rfl) hs
    | .decl _ _ => exact absurd (.inr fun _ => rfl) hs
    | .selector _ => exact absurd (.inr fun _ => rfl) hs
    | .unknown _ => exact absurd (.inr fun _ => rfl) hs
    | .and cs =>
      cases o with
      | or => exact absurd (.inl rfl) hs
      | and =>
        simp only [Cond.WF] at h
        have hp := printItems_text b .and cs h.1 h.2
        simpa [Cond.needsParens, parensIf, Cond.print, Cond.eval] using hp
    | .or cs =>
      cases o with
      | and => exact absurd (.inl rfl) hs
      | or =>
        simp only [Cond.WF] at h
        have hp := printItems_text b .or cs h.1 h.2
        simpa [Cond.needsParens, parensIf, Cond.print, Cond.eval] using hp
termination_by (sizeOf c, 2)
theorem printItems_text (b : Browser) (o : Op) (cs : List Cond) (hne : cs ≠ []) (h : Cond.WFAll cs) :
    Chain b o (Cond.printItems o cs) (match o with | .and => Cond.evalAll b cs | .or => Cond.evalAny b cs) := by
  match cs with
  | [] => exact absurd rfl hne
  | c :: cs =>
    simp only [Cond.WFAll] at h
    have h1 := item_chain b o c h.1
    have h2 := printRest_text b o cs h.2
    have := chain_append b o _ _ _ _ h1 h2
    rw [Cond.printItems]
    cases o <;> simpa [Op.apply, Cond.evalAll, Cond.evalAny] using this
termination_by (sizeOf cs, 3)
theorem printRest_text (b : Browser) (o : Op) (cs : List Cond) (h : Cond.WFAll cs) :
    ChainRest b o (Cond.printRest o cs) (match o with | .and => Cond.evalAll b cs | .or => Cond.evalAny b cs) := by
  match cs with
  | [] => cases o <;> simp [Cond.printRest, ChainRest, textAnds, textOrs, Cond.evalAll, Cond.evalAny]
  | c :: cs =>
    simp only [Cond.WFAll] at h
    have h1 := chain_rest b o _ _ (item_chain b o c h.1)
    have h2 := printRest_text b o cs h.2
    have := chainRest_append b o _ _ _ _ h1 h2
    rw [Cond.printRest]
    cases o <;> simpa [Op.apply, Cond.evalAll, Cond.evalAny] using this
termination_by (sizeOf cs, 3)
end

end Verif.Supports
