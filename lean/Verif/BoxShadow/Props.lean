import Verif.BoxShadow.Parse
/-! # The handler of `box-shadow` keeps what browsers show -/
namespace Verif.BoxShadow
open Verif.TextDeco (Vp meets)
variable {L C : Type}

theorem final_append (b : Browser L C) (xs ys : List (Decl L C)) :
    final b (xs ++ ys) = ys.foldl (fun x d => (reads b d).getD x) (final b xs) := by simp [final]

theorem final_last (b : Browser L C) (xs : List (Decl L C)) (d : Decl L C) : final b (xs ++ [d]) = (reads b d).getD (final b xs) := by
  simp [final]

/-- What is written for a value: fallbacks, and as the last one the value itself, in LAB, or in RGB if it is prefixed. -/
theorem flush_last (env : Env L C) (s : State L C) (v : Val L C) (vp : Vp) (h : s.pending = some (v, vp)) :
    ∃ xs w q, (flush env s).out = s.out ++ xs ++ [.set w q] ∧
      ((w = v ∨ w = recolor env.lab v) ∧ (q = vp ∨ q = env.prefixes vp ∨ q = Vp.plain ∧ (env.prefixes vp).none = true ∨ q = Vp.plain) ∨
        w = recolor env.rgb v ∧ q = env.prefixes vp ∧ (env.prefixes vp).none = false) := by
  simp only [flush, h]
  split
  · exact ⟨[], v, vp, by simp, .inl ⟨.inl rfl, .inl rfl⟩⟩
  · simp only [firstOut]
    split
    · next hk =>
      simp only [Bool.and_eq_true, Bool.not_eq_true'] at hk
      exact ⟨[], _, _, by simp, .inr ⟨rfl, rfl, hk.2⟩⟩
    · cases hl : (needsOf env v).lab
      · refine ⟨_, v, _, by simp only [Bool.false_eq_true, if_false]; exact (List.append_assoc _ _ _).symm, .inl ⟨.inl rfl, ?_⟩⟩
        split
        · exact .inr (.inr (.inr rfl))
        · exact .inr (.inl rfl)
      · exact ⟨_, _, _, by simp only [if_true]; exact (List.append_assoc _ _ _).symm, .inl ⟨.inr rfl, .inr (.inr (.inr rfl))⟩⟩

/-- Nothing waits after a flush. -/
theorem flush_pending (env : Env L C) (s : State L C) : (flush env s).pending = none := by
  simp only [flush]
  split
  · assumption
  · split <;> rfl

variable [DecidableEq L] [DecidableEq C]

/-- A declaration that is handled waits, with its own prefixes and perhaps more. -/
theorem handle_set (env : Env L C) (s : State L C) (v : Val L C) (vp : Vp) :
    ∃ q, (handle env s (.set v vp)).pending = some (v, q) ∧ (vp.none = true → q.none = true) ∧ (vp.webkit = true → q.webkit = true) ∧
      (vp.moz = true → q.moz = true) := by
  simp only [handle]
  generalize (if (s.pending.isSome && !v.all env.compatible) = true then flush env s else s) = t
  split
  · split
    · exact ⟨vp, rfl, id, id, id⟩
    · exact ⟨_, rfl, by simp_all [Vp.or], by simp_all [Vp.or], by simp_all [Vp.or]⟩
  · exact ⟨vp, rfl, id, id, id⟩

/-- C198: in a browser that knows all prefixes and reads all colours, a block shows the same shadows before and after, with their colours perhaps
converted to LAB, or to RGB if the declaration that decides has a prefix. -/
theorem modern_same (env : Env L C) (henv : PrefixesOk env) (b : Browser L C) (hk : b.known = ⟨true, true, true⟩) (hok : ∀ s, b.ok s = true)
    (ds : List (Decl L C)) (hvp : ∀ d ∈ ds, d.vp.isEmpty = false) :
    Same (if (ds.getLast?.map fun d => d.vp.none) = some true then [env.lab] else [env.lab, env.rgb]) (final b ds) (final b (minify env ds)) := by
  have hm : ∀ q : Vp, q.isEmpty = false → meets b.known q = true := by
    intro q hq
    obtain ⟨x, y, z⟩ := q
    rw [hk]
    revert hq
    cases x <;> cases y <;> cases z <;> decide
  have hall : ∀ v : Val L C, v.all b.ok = true := by intro v; simp [hok]
  rcases List.eq_nil_or_concat ds with rfl | ⟨xs, d, rfl⟩
  · rfl
  · rw [List.concat_eq_append] at *
    have hd : d.vp.isEmpty = false := hvp d (by simp)
    rw [final_last]
    simp only [minify, List.foldl_append, List.foldl_cons, List.foldl_nil, List.getLast?_append_of_ne_nil, List.getLast?_singleton,
      Option.map_some, ne_eq, List.cons_ne_self, not_false_eq_true]
    generalize xs.foldl (handle env) {} = s
    cases d with
    | raw u vp =>
      have : reads b (.raw u vp : Decl L C) = some (.raw u) := by simp [reads, hm vp hd]
      rw [this]
      have h2 : (flush env (handle env s (.raw u vp))).out = (flush env s).out ++ [.raw u vp] := by
        have hn : (flush env s).pending = none := flush_pending env s
        have : (handle env s (.raw u vp)).pending = none := hn
        simp only [flush, this]
        rfl
      rw [h2, final_last, this]
      rfl
    | set v vp =>
      have hr : reads b (.set v vp : Decl L C) = some (.val v) := by simp [reads, hm vp hd, hall]
      rw [hr]
      obtain ⟨q, h1, h2, h3, h4⟩ := handle_set env s v vp
      obtain ⟨ys, w, q', h5, h6⟩ := flush_last env _ v q h1
      have hq : q.isEmpty = false := by
        simp only [Decl.vp, Vp.isEmpty] at hd ⊢
        revert h2 h3 h4 hd
        cases vp.none <;> cases vp.webkit <;> cases vp.moz <;> simp <;> intros <;> simp_all
      have hp : (env.prefixes q).isEmpty = false := by
        cases hn : q.none
        · rw [henv.keep q hn]; exact hq
        · simp [Vp.isEmpty, henv.plain q hn]
      rw [h5, final_last]
      rcases h6 with ⟨hw, hq'⟩ | ⟨rfl, rfl, h7⟩
      · have : q'.isEmpty = false := by
          rcases hq' with rfl | rfl | ⟨rfl, _⟩ | rfl
          · exact hq
          · exact hp
          · rfl
          · rfl
        have h8 : reads b (.set w q' : Decl L C) = some (.val w) := by simp [reads, hm q' this, hall]
        rw [h8]
        simp only [Option.getD_some, Same]
        rcases hw with rfl | rfl
        · exact .inl rfl
        · refine .inr ⟨env.lab, ?_, rfl⟩
          split <;> simp
      · have h8 : reads b (.set (recolor env.rgb v) (env.prefixes q) : Decl L C) = some (.val (recolor env.rgb v)) := by
          simp [reads, hm _ hp, hall]
        rw [h8]
        have h9 : vp.none ≠ true := by
          intro h
          have := henv.plain q (h2 h)
          rw [this] at h7
          simp at h7
        simp only [Option.getD_some, Same, Decl.vp, Option.some.injEq, h9]
        exact .inr ⟨env.rgb, by simp, rfl⟩

/-! ## Browsers that do not read all colours -/

/-- What holds after each declaration of a block without prefixes. -/
structure Inv (env : Env L C) (b : Browser L C) (s : State L C) (ds : List (Decl L C)) : Prop where
  first : s.flushed = false → s.out = []
  plain : ∀ v vp, s.pending = some (v, vp) → vp = Vp.plain
  read : ∀ v vp, s.pending = some (v, vp) → v.all b.ok = true → final b ds = .val v
  same : (∀ v vp, s.pending = some (v, vp) → v.all b.ok = false) → final b ds ≠ .before → Same [env.lab] (final b ds) (final b s.out)

omit [DecidableEq L] [DecidableEq C] in
theorem Same.ne_before {fs : List (C → C)} {x y : Seen L C} (h : Same fs x y) (hx : x ≠ .before) : y ≠ .before := by
  cases x with
  | before => exact absurd rfl hx
  | raw u => simp only [Same] at h; subst h; simp
  | val v => rcases h with rfl | ⟨f, _, rfl⟩ <;> simp

theorem meets_plain {known : Vp} (h : known.none = true) {q : Vp} (hq : q.none = true) : meets known q = true := by
  simp [meets, h, hq]

omit [DecidableEq L] [DecidableEq C] in
theorem recolor_ok {env : Env L C} {b : Browser L C} (ht : Target env b) {v : Val L C} (h : v.all b.ok = true) :
    (recolor env.lab v).all b.ok = true := by
  simp only [recolor, List.all_map, List.all_eq_true, Function.comp] at h ⊢
  exact fun s hs => ht.lab s (h s hs)

omit [DecidableEq L] [DecidableEq C] in
/-- Flushing keeps the invariant. -/
theorem Inv.flush {env : Env L C} (henv : PrefixesOk env) {b : Browser L C} (ht : Target env b) {s : State L C} {ds : List (Decl L C)}
    (h : Inv env b s ds) : Inv env b (flush env s) ds ∧ (BoxShadow.flush env s).pending = none := by
  cases hp : s.pending with
  | none =>
    have : BoxShadow.flush env s = s := by simp [BoxShadow.flush, hp]
    rw [this]
    exact ⟨h, hp⟩
  | some x =>
    obtain ⟨v, vp⟩ := x
    have hvp := h.plain v vp hp
    subst hvp
    have hpre := henv.plain Vp.plain rfl
    have hfl : (BoxShadow.flush env s).flushed = true := by
      simp only [BoxShadow.flush, hp]
      split
      · rfl
      · simp [firstOut, hpre]
    have hpend : (BoxShadow.flush env s).pending = none := by
      simp only [BoxShadow.flush, hp]
      split <;> rfl
    refine ⟨⟨by simp [hfl], by simp [hpend], by simp [hpend], fun _ hne => ?_⟩, hpend⟩
    cases hv : v.all b.ok with
    | true =>
      obtain ⟨ys, w, q', h5, h6⟩ := flush_last env s v Vp.plain hp
      rw [h5, final_last, h.read v _ hp hv]
      rcases h6 with ⟨hw, hq⟩ | ⟨_, _, hc⟩
      · have hq' : q'.none = true := by
          rcases hq with rfl | rfl | ⟨rfl, _⟩ | rfl
          · rfl
          · exact hpre
          · rfl
          · rfl
        have hwok : w.all b.ok = true := by
          rcases hw with rfl | rfl
          · exact hv
          · exact recolor_ok ht hv
        have h8 : reads b (.set w q' : Decl L C) = some (.val w) := by
          simp only [reads, meets_plain ht.known hq', hwok, and_self, if_true]
        rw [h8]
        simp only [Option.getD_some, Same]
        rcases hw with rfl | rfl
        · exact .inl rfl
        · exact .inr ⟨env.lab, by simp, rfl⟩
      · rw [hpre] at hc; simp at hc
    | false =>
      have h7 : reads b (.set v Vp.plain : Decl L C) = none := by simp [reads, hv]
      have h0 := h.same (by rw [hp]; intro v' vp' e; cases e; exact hv) hne
      cases hf : s.flushed with
      | true =>
        have : (BoxShadow.flush env s).out = s.out ++ [.set v Vp.plain] := by simp [BoxShadow.flush, hp, hf]
        rw [this, final_last, h7]
        exact h0
      | false =>
        rw [h.first hf] at h0
        exact absurd rfl (h0.ne_before hne)

omit [DecidableEq L] [DecidableEq C] in
/-- A new value waits after a flush, or when nothing waits. -/
theorem Inv.put {env : Env L C} {b : Browser L C} (ht : Target env b) {s : State L C} {ds : List (Decl L C)}
    (h : Inv env b s ds) (hs : s.pending = none) (v : Val L C) : Inv env b { s with pending := some (v, Vp.plain) } (ds ++ [.set v Vp.plain]) := by
  refine ⟨h.first, ?_, ?_, ?_⟩
  · intro v' vp' e; cases e; rfl
  · intro v' vp' e hv
    cases e
    have h8 : reads b (.set v Vp.plain : Decl L C) = some (.val v) := by
      simp only [reads, meets_plain ht.known (q := Vp.plain) rfl, hv, and_self, if_true]
    rw [final_last, h8]; rfl
  · intro hv hne
    have hv := hv v _ rfl
    have h7 : reads b (.set v Vp.plain : Decl L C) = none := by simp [reads, hv]
    rw [final_last, h7] at hne ⊢
    exact h.same (by rw [hs]; simp) hne

/-- One declaration keeps the invariant. -/
theorem Inv.handle {env : Env L C} (henv : PrefixesOk env) {b : Browser L C} (ht : Target env b) {s : State L C} {ds : List (Decl L C)}
    (h : Inv env b s ds) (d : Decl L C) (hd : d.vp = Vp.plain) : Inv env b (handle env s d) (ds ++ [d]) := by
  cases d with
  | raw u vp =>
    simp only [Decl.vp] at hd
    subst hd
    obtain ⟨_, h1⟩ := h.flush henv ht
    have hr : reads b (.raw u Vp.plain : Decl L C) = some (.raw u) := by simp only [reads, meets_plain ht.known (q := Vp.plain) rfl, if_true]
    refine ⟨by simp [BoxShadow.handle], by simp [BoxShadow.handle, h1], by simp [BoxShadow.handle, h1], fun _ _ => ?_⟩
    simp only [BoxShadow.handle]
    rw [final_last, final_last, hr]
    rfl
  | set v vp =>
    simp only [Decl.vp] at hd
    subst hd
    simp only [BoxShadow.handle]
    cases hp : s.pending with
    | none =>
      simp only [Option.isSome_none, Bool.false_and, Bool.false_eq_true, if_false, hp]
      exact h.put ht hp v
    | some x =>
      obtain ⟨w, q⟩ := x
      simp only [Option.isSome_some, Bool.true_and]
      cases hc : v.all env.compatible with
      | false =>
        obtain ⟨h2, h1⟩ := h.flush henv ht
        simp only [Bool.not_false, if_true, h1]
        exact h2.put ht h1 v
      | true =>
        have hq := h.plain w q hp
        subst hq
        have hv : v.all b.ok = true := by
          simp only [List.all_eq_true] at hc ⊢
          exact fun s hs => ht.compatible s (hc s hs)
        have h8 : reads b (.set v Vp.plain : Decl L C) = some (.val v) := by
          simp only [reads, meets_plain ht.known (q := Vp.plain) rfl, hv, and_self, if_true]
        have hcon : ¬ (w ≠ v ∧ Vp.plain.contains Vp.plain = false) := by simp [Vp.contains, Vp.plain]
        simp only [Bool.not_true, Bool.false_eq_true, if_false, hp, if_neg hcon]
        refine ⟨h.first, ?_, ?_, ?_⟩
        · intro v' vp' e; cases e; rfl
        · intro v' vp' e _; cases e; rw [final_last, h8]; rfl
        · intro hx _
          have := hx v _ rfl
          rw [hv] at this
          simp at this

theorem Inv.all {env : Env L C} (henv : PrefixesOk env) {b : Browser L C} (ht : Target env b) : ∀ (ds es : List (Decl L C)) (s : State L C),
    (∀ d ∈ ds, d.vp = Vp.plain) → Inv env b s es → Inv env b (ds.foldl (BoxShadow.handle env) s) (es ++ ds)
  | [], es, s, _, h => by simpa using h
  | d :: ds, es, s, hd, h => by
    have := Inv.all henv ht ds (es ++ [d]) _ (fun d' h' => hd d' (by simp [h'])) (h.handle henv ht d (hd d (by simp)))
    simpa using this

/-- C199: in every browser of the targets, whichever shadows it reads, a block without prefixes that shows something shows the same after it has been
minified, with the colours perhaps converted to LAB: of several values, the last one that the browser reads still decides. -/
theorem target_same_partial (env : Env L C) (henv : PrefixesOk env) (b : Browser L C) (ht : Target env b) (ds : List (Decl L C))
    (hd : ∀ d ∈ ds, d.vp = Vp.plain) (hne : final b ds ≠ .before) : Same [env.lab] (final b ds) (final b (minify env ds)) := by
  have h := Inv.all henv ht ds [] {} hd ⟨fun _ => rfl, by simp, by simp, by simp [final]⟩
  obtain ⟨h1, h2⟩ := h.flush henv ht
  exact h1.same (by rw [h2]; simp) hne

/-- C199: a browser that reads the value after conversion to RGB, and no more, shows that; and no browser that reads it shows nothing. -/
theorem fallback_shown (env : Env L C) (henv : PrefixesOk env) (b : Browser L C) (hb : b.known.none = true) (v : Val L C)
    (s : Shadow L C) (hs : s ∈ v) (hn : (env.needs s.color).rgb = true) (hok : (recolor env.rgb v).all b.ok = true) :
    ∃ f ∈ [env.rgb, env.p3, env.lab, id], final b (minify env [.set v Vp.plain]) = .val (recolor f v) ∧ (recolor f v).all b.ok = true := by
  have hk : ∀ (w : Val L C) (k : Kinds), k.rgb = true → (w.foldl (fun k s => (⟨k.rgb || (env.needs s.color).rgb, k.p3 || (env.needs s.color).p3,
      k.lab || (env.needs s.color).lab⟩ : Kinds)) k).rgb = true := by
    intro w
    induction w with
    | nil => exact fun k h => h
    | cons a w ih => exact fun k h => ih _ (by simp [h])
  have hk2 : ∀ (w : Val L C) (k : Kinds), s ∈ w → (w.foldl (fun k s => (⟨k.rgb || (env.needs s.color).rgb, k.p3 || (env.needs s.color).p3,
      k.lab || (env.needs s.color).lab⟩ : Kinds)) k).rgb = true := by
    intro w
    induction w with
    | nil => intro k h; simp at h
    | cons a w ih =>
      intro k h
      rcases List.mem_cons.1 h with rfl | h
      · exact hk w _ ((congrArg (k.rgb || ·) hn).trans (Bool.or_true _))
      · exact ih _ h
  have hrgb : (needsOf env v).rgb = true := hk2 v _ hs
  have hpre := henv.plain Vp.plain rfl
  have hid : recolor id v = v := by
    rw [recolor]
    exact (List.map_congr_left (fun _ _ => rfl)).trans (List.map_id v)
  have hset : ∀ (w : Val L C) (q : Vp) (x : Seen L C), q.none = true → (reads b (.set w q)).getD x = if w.all b.ok = true then .val w else x := by
    intro w q x hq
    simp only [reads, meets_plain hb hq, true_and]
    split <;> rfl
  have hp : Vp.plain.none = true := rfl
  have hout : minify env [.set v Vp.plain] = [.set (recolor env.rgb v) (env.prefixes Vp.plain)] ++
      (if (needsOf env v).p3 then [.set (recolor env.p3 v) Vp.plain] else []) ++
      (if (needsOf env v).lab then [.set (recolor env.lab v) Vp.plain] else [.set v Vp.plain]) := by
    simp [minify, handle, flush, firstOut, hrgb, hpre]
  rw [hout]
  cases h3 : (needsOf env v).p3 <;> cases h4 : (needsOf env v).lab <;>
    simp only [Bool.false_eq_true, if_false, if_true, List.append_nil, List.cons_append, List.nil_append, final, List.foldl_cons, List.foldl_nil,
      hset _ _ _ hpre, hset _ _ _ hp, hok]
  · split
    · next h => exact ⟨id, by simp, by rw [hid], by rw [hid]; exact h⟩
    · exact ⟨env.rgb, by simp, rfl, hok⟩
  · split
    · next h => exact ⟨env.lab, by simp, rfl, h⟩
    · exact ⟨env.rgb, by simp, rfl, hok⟩
  · split
    · next h => exact ⟨id, by simp, by rw [hid], by rw [hid]; exact h⟩
    · split
      · next h => exact ⟨env.p3, by simp, rfl, h⟩
      · exact ⟨env.rgb, by simp, rfl, hok⟩
  · split
    · next h => exact ⟨env.lab, by simp, rfl, h⟩
    · split
      · next h => exact ⟨env.p3, by simp, rfl, h⟩
      · exact ⟨env.rgb, by simp, rfl, hok⟩

/-! ## Examples and what is wrong -/

/-- Colours below 10 are read everywhere; colour 10 + n has the RGB fallback n; `-webkit-` is needed. -/
def exampleEnv : Env Int Nat where
  compatible s := s.color < 10
  prefixes vp := if vp.none then { vp with webkit := true } else vp
  needs c := ⟨10 ≤ c, false, false⟩
  rgb c := if 10 ≤ c then c - 10 else c
  p3 := id
  lab := id

/-- A browser that knows no prefix, reads no colours from 10, and no negative blur. -/
def exampleBrowser : Browser Int Nat := ⟨⟨true, false, false⟩, fun s => s.color < 10 && 0 ≤ s.blur⟩

/-- A shadow of a colour. -/
def sh (c : Nat) (blur : Int := 0) : Shadow Int Nat := ⟨c, 1, 2, blur, 0, false⟩

/-- `-webkit-` only. -/
def webkit : Vp := ⟨false, true, false⟩

example : PrefixesOk exampleEnv where
  plain := by intro vp h; simp [exampleEnv, h]
  keep := by intro vp h; simp [exampleEnv, h]

example : Target exampleEnv ⟨⟨true, false, false⟩, fun s => s.color < 10⟩ where
  known := rfl
  compatible := fun _ h => h
  lab := fun _ h => h

/-- A fallback of the author is kept before a colour that not all browsers read; other values are overwritten. -/
example : minify exampleEnv [.set [sh 1] Vp.plain, .set [sh 2] Vp.plain, .set [sh 13] Vp.plain] =
    [.set [sh 2] ⟨true, true, false⟩, .set [sh 13] Vp.plain] := by decide
/-- Otherwise one is added. -/
example : minify exampleEnv [.set [sh 13, sh 1] Vp.plain] = [.set [sh 3, sh 1] ⟨true, true, false⟩, .set [sh 13, sh 1] Vp.plain] := by decide

/-- The grammar of browsers allows no negative blur, but one is read, and it overwrites a valid value: browsers showed that, and now show nothing. -/
theorem negative_blur_wrong : parse (0 : Int) (0 : Nat) [.len 1, .len 2, .len (-1), .col 5] = some (sh 5 (-1), []) ∧
    minify exampleEnv [.set [sh 1] Vp.plain, .set [sh 5 (-1)] Vp.plain] = [.set [sh 5 (-1)] ⟨true, true, false⟩] ∧
    final exampleBrowser [.set [sh 1] Vp.plain, .set [sh 5 (-1)] Vp.plain] = .val [sh 1] ∧
    final exampleBrowser [.set [sh 5 (-1)] ⟨true, true, false⟩] = .before := by decide

/-- Prefixes are joined, so a prefixed value changes the unprefixed one: `-webkit-box-shadow: 1; box-shadow: 1; -webkit-box-shadow: 2`. -/
theorem prefix_union_wrong :
    minify exampleEnv [.set [sh 1] webkit, .set [sh 1] Vp.plain, .set [sh 2] webkit] = [.set [sh 2] ⟨true, true, false⟩] ∧
    final exampleBrowser [.set [sh 1] webkit, .set [sh 1] Vp.plain, .set [sh 2] webkit] = .val [sh 1] ∧
    final exampleBrowser [.set [sh 2] ⟨true, true, false⟩] = .val [sh 2] := by decide

/-- The fallback that is added is the one of the first value, even if this value is overwritten: `box-shadow: 11; box-shadow: 12`. -/
theorem first_fallback_wrong :
    minify exampleEnv [.set [sh 11] Vp.plain, .set [sh 12] Vp.plain] =
      [.set [sh 1] ⟨true, true, false⟩, .set [sh 11] Vp.plain, .set [sh 12] Vp.plain] ∧
    final exampleBrowser (minify exampleEnv [.set [sh 11] Vp.plain, .set [sh 12] Vp.plain]) = .val [sh 1] ∧
    final exampleBrowser (minify exampleEnv [.set [sh 12] Vp.plain]) = .val [sh 2] := by decide

/-- A prefixed value that has a fallback does not count as flushed, so prefixes are added to the next one, which overwrites it in browsers that
know only `-webkit-`; a value without a fallback is kept. -/
theorem early_return_wrong :
    minify exampleEnv [.set [sh 11] webkit, .set [sh 2] Vp.plain] = [.set [sh 1] webkit, .set [sh 2] ⟨true, true, false⟩] ∧
    minify exampleEnv [.set [sh 1] webkit, .set [sh 2] Vp.plain] = [.set [sh 1] webkit, .set [sh 2] Vp.plain] ∧
    final ⟨webkit, fun _ => true⟩ [.set [sh 11] webkit, .set [sh 2] Vp.plain] = .val [sh 11] ∧
    final ⟨webkit, fun _ => true⟩ [.set [sh 1] webkit, .set [sh 2] ⟨true, true, false⟩] = .val [sh 2] := by decide

end Verif.BoxShadow
