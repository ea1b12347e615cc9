import Verif.Size.Spec
import Verif.Targets.Props
/-! # C122: the sizes of a block -/
namespace Verif.Size
open Verif.Targets Spec

section
variable {L : Type}

theorem winner_append (b : Agent L) (s : Kind × Axis) (l m : List (Decl L)) : winner b s (l ++ m) = (winner b s m).or (winner b s l) := by
  induction l with
  | nil => simp [winner]
  | cons a l ih =>
    simp only [List.cons_append, winner, ih]
    cases winner b s m <;> simp

theorem winner_size (b : Agent L) (s : Kind × Axis) (n : Name) (v : Sz L) : winner b s [.size n v] = if slot n = s then sets b (.size n v) else none := rfl
theorem winner_raw (b : Agent L) (s : Kind × Axis) (n : Name) (t : Str) : winner b s [.unparsed n t] = if slot n = s then sets b (.unparsed n t) else none := rfl

theorem winner_other (b : Agent L) (s : Kind × Axis) (l : List (Decl L)) (h : ∀ d ∈ l, slot (nameOf d) ≠ s) : winner b s l = none := by
  induction l with
  | nil => rfl
  | cons a l ih =>
    simp only [winner]
    rw [ih fun d hd => h d (.tail _ hd), if_neg (h a (.head _))]

theorem winner_one (b : Agent L) (s : Kind × Axis) (M : Meaning L) (l : List (Decl L)) (h : ∀ d ∈ l, meaning d = M) :
    winner b s l = none ∨ winner b s l = some M := by
  induction l with
  | nil => exact .inl rfl
  | cons a l ih =>
    simp only [winner]
    rcases ih fun d hd => h d (.tail _ hd) with e | e
    · rw [e]
      have ha := h a (.head _)
      simp only
      split
      · cases a with
        | size n v =>
          simp only [meaning] at ha
          simp only [sets]
          split
          · exact .inl rfl
          · split
            · exact .inr (by rw [ha])
            · exact .inl rfl
        | unparsed n t =>
          simp only [meaning] at ha
          simp only [sets]
          split
          · exact .inl rfl
          · exact .inr (by rw [ha])
      · exact .inl rfl
    · rw [e]; exact .inr rfl

theorem slot_target (env : Env L) (n : Name) : slot (env.target n) = slot n := by
  unfold Env.target slot
  split
  · rfl
  · split <;> rfl

theorem slot_inj {n m : Name} (h : slot n = slot m) (hc : n.cat = m.cat) : n = m := by
  obtain ⟨a, b, c⟩ := n; obtain ⟨a', b', c'⟩ := m
  simp [slot] at h
  simp at hc
  simp [h, hc]

/-- The browser the source is seen with: if logical properties are compiled, it has them. -/
def Spec.Agent.seeing (b : Agent L) (env : Env L) : Agent L := { b with logical := b.logical || env.compile }

theorem sets_hidden {b : Agent L} {n : Name} (v : Sz L) (h : n.cat = .logical ∧ b.logical = false) : sets b (.size n v) = none := if_pos h
theorem sets_shown {b : Agent L} {n : Name} (v : Sz L) (h : ¬(n.cat = .logical ∧ b.logical = false)) :
    sets b (.size n v) = if b.knows v then some (.size (plain v)) else none := if_neg h
theorem raw_hidden {b : Agent L} {n : Name} (t : Str) (h : n.cat = .logical ∧ b.logical = false) : sets b (.unparsed n t) = none := if_pos h
theorem raw_shown {b : Agent L} {n : Name} (t : Str) (h : ¬(n.cat = .logical ∧ b.logical = false)) : sets b (.unparsed n t) = some (.raw t) := if_neg h

theorem hidden_target (env : Env L) (b : Agent L) (n : Name) :
    ((env.target n).cat = .logical ∧ b.logical = false) ↔ (n.cat = .logical ∧ (b.seeing env).logical = false) := by
  obtain ⟨c, k, a⟩ := n
  cases c with
  | physical => simp [Env.target]
  | logical => cases he : env.compile <;> simp [Env.target, Agent.seeing, he]

theorem sets_target (env : Env L) (b : Agent L) (n : Name) (v : Sz L) : sets b (.size (env.target n) v) = sets (b.seeing env) (.size n v) := by
  by_cases h : (env.target n).cat = .logical ∧ b.logical = false
  · rw [sets_hidden v h, sets_hidden v ((hidden_target env b n).mp h)]
  · rw [sets_shown v h, sets_shown v (mt (hidden_target env b n).mpr h)]; rfl

theorem sets_target_raw (env : Env L) (b : Agent L) (n : Name) (t : Str) : sets b (.unparsed (env.target n) t) = sets (b.seeing env) (.unparsed n t) := by
  by_cases h : (env.target n).cat = .logical ∧ b.logical = false
  · rw [raw_hidden t h, raw_hidden t ((hidden_target env b n).mp h)]
  · rw [raw_shown t h, raw_shown t (mt (hidden_target env b n).mpr h)]

/-- What the pending value of a slot sets. -/
def pv (b : Agent L) (env : Env L) (h : Handler L) (s : Kind × Axis) : Option (Meaning L) :=
  match h.pending ⟨h.category, s.1, s.2⟩ with
  | none => none
  | some v => sets b (.size (env.target ⟨h.category, s.1, s.2⟩) v)

/-- The winners before and after. -/
def Rel (all : List (Decl L)) (s : Kind × Axis) (x y : Option (Meaning L)) : Prop :=
  (∀ m, x = some m → y = some m) ∧ (x = none → y = none ∨ ∃ d ∈ all, slot (nameOf d) = s ∧ y = some (meaning d))

/-- The state after the declarations `src`, a part of `all`. -/
structure Inv (env : Env L) (b : Agent L) (all src : List (Decl L)) (st : Handler L × List (Decl L)) : Prop where
  cat : ∀ n v, st.1.pending n = some v → n.cat = st.1.category
  flu : ∀ d ∈ st.2, st.1.flushed (nameOf d) = true
  names : ∀ d ∈ st.2, ∃ x ∈ all, nameOf d = env.target (nameOf x)
  pend : ∀ n v, st.1.pending n = some v → .size n v ∈ all
  val : ∀ s, Rel all s (winner (b.seeing env) s src) ((pv b env st.1 s).or (winner b s st.2))

theorem put_same {A : Type} (f : Name → A) (n : Name) (a : A) : put f n a n = a := by simp [put]
theorem put_ne {A : Type} (f : Name → A) {n m : Name} (a : A) (h : m ≠ n) : put f n a m = f m := by simp [put, h]

theorem prefixed_mem (env : Env L) (fl : Name → Bool) (n : Name) (v : Sz L) (d : Decl L) (h : d ∈ prefixed env fl n v) :
    nameOf d = n ∧ fl n = false ∧ meaning d = .size (plain v) := by
  unfold prefixed at h
  split at h
  · split at h
    · simp at h
    · rename_i hf
      obtain ⟨p, -, rfl⟩ := List.mem_map.mp h
      exact ⟨rfl, by simpa using hf, rfl⟩
  · simp at h

/-- The block does not set a dimension under a physical and a logical name, unless logical names are compiled. -/
def NoMix (env : Env L) (all : List (Decl L)) : Prop :=
  ∀ x ∈ all, ∀ y ∈ all, slot (nameOf x) = slot (nameOf y) → env.target (nameOf x) = env.target (nameOf y)

theorem Inv.flushOne {env : Env L} {b : Agent L} {all src} {st} (hm : NoMix env all) (h : Inv env b all src st) (n : Name) :
    Inv env b all src (flushOne env st n) := by
  unfold Size.flushOne
  cases hp : st.1.pending n with
  | none => exact h
  | some v =>
    have hc := h.cat n v hp
    have hn := h.pend n v hp
    have hsl := slot_target env n
    refine ⟨?_, ?_, ?_, ?_, ?_⟩
    · intro k w hk
      simp only [put] at hk
      split at hk
      · simp at hk
      · exact h.cat k w hk
    · intro d hd
      simp only [put]
      split
      · rfl
      · rename_i hne
        simp only [List.append_assoc, List.mem_append, List.mem_singleton] at hd
        rcases hd with hd | hd | rfl
        · exact h.flu d hd
        · exact absurd (prefixed_mem _ _ _ _ _ hd).1 hne
        · exact absurd rfl hne
    · intro d hd
      simp only [List.append_assoc, List.mem_append, List.mem_singleton] at hd
      rcases hd with hd | hd | rfl
      · exact h.names d hd
      · exact ⟨_, hn, (prefixed_mem _ _ _ _ _ hd).1⟩
      · exact ⟨_, hn, rfl⟩
    · intro k w hk
      simp only [put] at hk
      split at hk
      · simp at hk
      · exact h.pend k w hk
    · intro s
      have hv := h.val s
      simp only [winner_append, winner_size, hsl]
      by_cases hs : slot n = s
      · rw [if_pos hs]
        have hname : (⟨st.1.category, s.1, s.2⟩ : Name) = n := by subst hs; exact slot_inj rfl hc.symm
        have hpv : pv b env st.1 s = sets b (.size (env.target n) v) := by simp [pv, hname, hp]
        have hpv' : pv b env { st.1 with pending := put st.1.pending n none, flushed := put st.1.flushed (env.target n) true } s = none := by
          simp [pv, hname, put]
        rw [hpv] at hv
        rw [hpv', Option.none_or]
        cases hset : sets b (.size (env.target n) v) with
        | some m => rw [hset] at hv; simpa using hv
        | none =>
          rw [hset] at hv
          simp only [Option.none_or] at hv ⊢
          cases hpre : prefixed env st.1.flushed (env.target n) v with
          | nil => simpa [winner] using hv
          | cons d0 l0 =>
            have hfl := (prefixed_mem env st.1.flushed (env.target n) v d0 (by rw [hpre]; exact .head _)).2.1
            have hout : winner b s st.2 = none := by
              apply winner_other
              intro d hd hds
              obtain ⟨x, hx, e⟩ := h.names d hd
              have : env.target (nameOf x) = env.target n := hm x hx _ hn (by rw [← slot_target env (nameOf x), ← e, hds, ← hs]; rfl)
              have hf := h.flu d hd
              rw [e, this, hfl] at hf
              cases hf
            rw [hout] at hv ⊢
            have hbef : winner (b.seeing env) s src = none := by
              cases hw : winner (b.seeing env) s src with
              | none => rfl
              | some m => have := hv.1 m hw; cases this
            rw [← hpre, Option.or_none]
            refine ⟨(fun m hm => by rw [hbef] at hm; cases hm), fun _ => ?_⟩
            rcases winner_one b s (.size (plain v)) (prefixed env st.1.flushed (env.target n) v) (fun d hd => (prefixed_mem _ _ _ _ _ hd).2.2) with e | e
            · exact .inl e
            · exact .inr ⟨_, hn, hs, e⟩
      · rw [if_neg hs, Option.none_or, winner_other b s (prefixed env st.1.flushed (env.target n) v), Option.none_or]
        · have hname : (⟨st.1.category, s.1, s.2⟩ : Name) ≠ n := by
            intro e; apply hs; rw [← e]; rfl
          have : pv b env { st.1 with pending := put st.1.pending n none, flushed := put st.1.flushed (env.target n) true } s = pv b env st.1 s := by
            simp only [pv, put_ne _ _ hname]
          rw [this]; exact hv
        · intro d hd
          rw [(prefixed_mem _ _ _ _ _ hd).1, hsl]; exact hs

theorem flushOne_fields (env : Env L) (st : Handler L × List (Decl L)) (n : Name) :
    (flushOne env st n).1.pending n = none ∧ (∀ m, st.1.pending m = none → (flushOne env st n).1.pending m = none) ∧
      (flushOne env st n).1.category = st.1.category ∧ (flushOne env st n).1.hasAny = st.1.hasAny := by
  unfold flushOne
  cases hp : st.1.pending n with
  | none => exact ⟨hp, fun m h => h, rfl, rfl⟩
  | some v =>
    refine ⟨put_same .., fun m h => ?_, rfl, rfl⟩
    simp only [put]; split <;> simp [h]

theorem flushAll_fields (env : Env L) (l : List Name) : ∀ st : Handler L × List (Decl L),
    (∀ m, (m ∈ l ∨ st.1.pending m = none) → (l.foldl (flushOne env) st).1.pending m = none) ∧
      (l.foldl (flushOne env) st).1.category = st.1.category ∧ (l.foldl (flushOne env) st).1.hasAny = st.1.hasAny := by
  induction l with
  | nil => intro st; exact ⟨fun m h => h.elim (fun h => by cases h) id, rfl, rfl⟩
  | cons n l ih =>
    intro st
    obtain ⟨f1, f2, f3, f4⟩ := flushOne_fields env st n
    obtain ⟨i1, i2, i3⟩ := ih (flushOne env st n)
    refine ⟨fun m h => i1 m ?_, by rw [List.foldl_cons, i2, f3], by rw [List.foldl_cons, i3, f4]⟩
    rcases h with h | h
    · cases h with
      | head => exact .inr f1
      | tail _ h => exact .inl h
    · exact .inr (f2 m h)

theorem mem_order (n : Name) : n ∈ order := by
  obtain ⟨a, b, c⟩ := n
  cases a <;> cases b <;> cases c <;> decide

theorem Inv.foldl {env : Env L} {b : Agent L} {all src} (hm : NoMix env all) (l : List Name) : ∀ {st}, Inv env b all src st →
    Inv env b all src (l.foldl (Size.flushOne env) st) := by
  induction l with
  | nil => intro st h; exact h
  | cons n l ih => intro st h; exact ih (h.flushOne hm n)

/-- Nothing is pending unless it is said so. -/
def Any (h : Handler L) : Prop := h.hasAny = false → ∀ n, h.pending n = none

theorem Inv.flush {env : Env L} {b : Agent L} {all src} {st} (hm : NoMix env all) (h : Inv env b all src st) (ha : Any st.1) :
    Inv env b all src (flush env st) ∧ (∀ n, (Size.flush env st).1.pending n = none) ∧ (Size.flush env st).1.category = st.1.category := by
  unfold Size.flush
  split
  · have h0 : Inv env b all src ({ st.1 with hasAny := false }, st.2) := ⟨h.cat, h.flu, h.names, h.pend, h.val⟩
    obtain ⟨i1, i2, -⟩ := flushAll_fields env order ({ st.1 with hasAny := false }, st.2)
    exact ⟨h0.foldl hm order, fun n => i1 n (.inl (mem_order n)), i2⟩
  · rename_i hn
    exact ⟨h, ha (by simpa using hn), rfl⟩

theorem pv_none (b : Agent L) (env : Env L) (h : Handler L) (hn : ∀ n, h.pending n = none) (s : Kind × Axis) : pv b env h s = none := by simp [pv, hn]

theorem Inv.handle {env : Env L} {b : Agent L} {all src} {st} (hm : NoMix env all)
    (hk : ∀ n v, Decl.size n v ∈ all → env.incompatible v = false → b.knows v = true)
    (h : Inv env b all src st) (ha : Any st.1) (d : Decl L) (hd : d ∈ all) :
    Inv env b all (src ++ [d]) (handle env st d) ∧ Any (Size.handle env st d).1 := by
  cases d with
  | unparsed n t =>
    obtain ⟨hf, hn, hc⟩ := h.flush hm ha
    simp only [Size.handle]
    generalize Size.flush env st = st' at hf hn hc
    have hsl := slot_target env n
    refine ⟨⟨?_, ?_, ?_, ?_, ?_⟩, fun _ => hn⟩
    · intro k w hw; rw [hn k] at hw; cases hw
    · intro d hd
      simp only [put]
      split
      · rfl
      · rename_i hne
        simp only [List.mem_append, List.mem_singleton] at hd
        rcases hd with hd | rfl
        · exact hf.flu d hd
        · exact absurd rfl hne
    · intro d hd
      simp only [List.mem_append, List.mem_singleton] at hd
      rcases hd with hx | rfl
      · exact hf.names d hx
      · exact ⟨_, hd, rfl⟩
    · intro k w hw; rw [hn k] at hw; cases hw
    · intro s
      have hv := hf.val s
      rw [pv_none b env st'.1 hn, Option.none_or] at hv
      rw [pv_none b env _ (by exact hn), Option.none_or]
      simp only [winner_append, winner_raw, hsl, sets_target_raw]
      split
      · rename_i hsn
        cases hs : sets (b.seeing env) (.unparsed n t) with
        | none => simpa using hv
        | some m => exact ⟨fun x hx => by simpa using hx, fun hx => by simp at hx⟩
      · simpa using hv
  | size n v =>
    simp only [Size.handle]
    have key : ∃ st', st' = (if n.cat ≠ st.1.category ∨ ((st.1.pending n).isSome ∧ env.incompatible v = true) then Size.flush env st else st) ∧
        Inv env b all src st' ∧ ((∀ m, st'.1.pending m = none) ∨ (n.cat = st'.1.category ∧ ((st'.1.pending n) = none ∨ env.incompatible v = false))) := by
      split
      · obtain ⟨hf, hn, -⟩ := h.flush hm ha
        exact ⟨_, rfl, hf, .inl hn⟩
      · rename_i hc
        refine ⟨_, rfl, h, .inr ⟨by simpa using fun e => hc (.inl e), ?_⟩⟩
        cases hp : st.1.pending n with
        | none => exact .inl rfl
        | some w => exact .inr (by cases hi : env.incompatible v with | false => rfl | true => exact absurd (.inr ⟨by simp [hp], hi⟩) hc)
    obtain ⟨st', e, hf, hcase⟩ := key
    rw [← e]
    refine ⟨⟨?_, hf.flu, hf.names, ?_, ?_⟩, fun e => by cases e⟩
    · intro k w hw
      simp only [put] at hw
      split at hw
      · rename_i hkn; rw [hkn]
      · rcases hcase with hn | ⟨hc, -⟩
        · rw [hn k] at hw; cases hw
        · exact (hf.cat k w hw).trans hc.symm
    · intro k w hw
      simp only [put] at hw
      split at hw
      · rename_i hkn; cases hw; rw [hkn]; exact hd
      · exact hf.pend k w hw
    · intro s
      have hv := hf.val s
      simp only [winner_append, winner_size]
      by_cases hs : slot n = s
      · rw [if_pos hs]
        have hname : (⟨n.cat, s.1, s.2⟩ : Name) = n := by subst hs; rfl
        have hpv : pv b env { st'.1 with pending := put st'.1.pending n (some v), category := n.cat, hasAny := true } s = sets (b.seeing env) (.size n v) := by
          simp only [pv, hname, put_same, sets_target]
        rw [hpv]
        cases hset : sets (b.seeing env) (.size n v) with
        | some m => exact ⟨fun x hx => by simpa using hx, fun hx => by simp at hx⟩
        | none =>
          simp only [Option.none_or]
          have : pv b env st'.1 s = none := by
            rcases hcase with hn | ⟨hc, hp | hi⟩
            · exact pv_none _ _ _ hn _
            · simp [pv, ← hc, hname, hp]
            · have hkn := hk n v hd hi
              simp only [pv, ← hc, hname]
              cases hp : st'.1.pending n with
              | none => rfl
              | some w =>
                simp only [sets_target]
                by_cases hl : n.cat = .logical ∧ (b.seeing env).logical = false
                · exact sets_hidden w hl
                · rw [sets_shown v hl, if_pos (show (b.seeing env).knows v = true from hkn)] at hset; cases hset
          rw [this, Option.none_or] at hv
          exact hv
      · rw [if_neg hs, Option.none_or]
        have hname : (⟨n.cat, s.1, s.2⟩ : Name) ≠ n := by
          intro e; apply hs; rw [← e]; rfl
        have : pv b env { st'.1 with pending := put st'.1.pending n (some v), category := n.cat, hasAny := true } s = pv b env st'.1 s := by
          rcases hcase with hn | ⟨hc, -⟩
          · rw [pv_none b env st'.1 hn]; simp only [pv, put_ne _ _ hname, hn]
          · simp only [pv, put_ne _ _ hname]; rw [hc]
        rw [this]; exact hv

/-- C122 for blocks that do not set a dimension under a physical and a logical name (unless logical names are compiled), for a browser that understands those of the declared values that the targets are said to support: a browser that took one of the declarations into account uses the same value afterwards (perhaps with a vendor prefix);
one that took none into account uses none, or the value of a declaration whose prefixed form it understands. If logical properties are compiled, it is compared with a browser that has them. -/
theorem C122_size_partial (env : Env L) (b : Agent L) (h : Handler L) (hh : (∀ n, h.pending n = none) ∧ h.flushed = fun _ => false) (ds : List (Decl L))
    (hm : NoMix env ds) (hk : ∀ n v, Decl.size n v ∈ ds → env.incompatible v = false → b.knows v = true) (s : Kind × Axis) :
    (∀ m, winner (b.seeing env) s ds = some m → winner b s (run env h ds).2 = some m) ∧
    (winner (b.seeing env) s ds = none → winner b s (run env h ds).2 = none ∨ ∃ d ∈ ds, slot (nameOf d) = s ∧ winner b s (run env h ds).2 = some (meaning d)) := by
  have loop : ∀ (rest src : List (Decl L)) (st : Handler L × List (Decl L)), src ++ rest = ds → Inv env b ds src st → Any st.1 →
      Inv env b ds ds (rest.foldl (Size.handle env) st) ∧ Any (rest.foldl (Size.handle env) st).1 := by
    intro rest
    induction rest with
    | nil => intro src st e hi ha; rw [List.append_nil] at e; subst e; exact ⟨hi, ha⟩
    | cons d rest ih =>
      intro src st e hi ha
      obtain ⟨i1, a1⟩ := hi.handle hm hk ha d (by rw [← e]; simp)
      exact ih (src ++ [d]) _ (by simp [e]) i1 a1
  obtain ⟨i, a⟩ := loop ds [] (h, []) rfl
    ⟨(fun n v hv => by rw [hh.1 n] at hv; cases hv), (fun d hd => by cases hd), (fun d hd => by cases hd), (fun n v hv => by rw [hh.1 n] at hv; cases hv),
      (fun s => by rw [pv_none _ _ _ hh.1]; exact ⟨fun m hm => (by cases hm), fun _ => .inl rfl⟩)⟩ (fun _ => hh.1)
  obtain ⟨f, hn, -⟩ := i.flush hm a
  have hv := f.val s
  rw [pv_none _ _ _ hn, Option.none_or] at hv
  exact hv

/-- C122: after a block the handler is ready for the next one: nothing of this block remains. -/
theorem C122_ready (env : Env L) (ds : List (Decl L)) (h : Handler L) (hh : (∀ n, h.pending n = none) ∧ h.flushed = fun _ => false) :
    (∀ n, (run env h ds).1.pending n = none) ∧ (run env h ds).1.flushed = fun _ => false := by
  refine ⟨?_, rfl⟩
  have step : ∀ (st : Handler L × List (Decl L)) d, Any st.1 → Any (Size.handle env st d).1 := by
    intro st d ha
    have hfl : ∀ n, (Size.flush env st).1.pending n = none := by
      unfold Size.flush
      split
      · exact fun n => (flushAll_fields env order _).1 n (.inl (mem_order n))
      · rename_i hn; exact ha (by simpa using hn)
    cases d with
    | size n v => exact fun e => by simp [Size.handle] at e
    | unparsed n t => exact fun _ => hfl
  have loop : ∀ (ds : List (Decl L)) (st : Handler L × List (Decl L)), Any st.1 → Any (ds.foldl (Size.handle env) st).1 := by
    intro ds
    induction ds with
    | nil => intro st h; exact h
    | cons d ds ih => intro st h; exact ih _ (step st d h)
  have ha := loop ds (h, []) (fun _ => hh.1)
  show ∀ n, (Size.flush env _).1.pending n = none
  unfold Size.flush
  split
  · exact fun n => (flushAll_fields env order _).1 n (.inl (mem_order n))
  · rename_i hn; exact ha (by simpa using hn)

end
/-- C122: no keyword with a content-based meaning, prefixed or not, counts as supported where Internet Explorer is a target: so such a value never replaces an earlier one there. -/
theorem C122_ie {L : Type} (lc : L → Browsers → Bool) (br : Browsers) (v : Nat) (hv : br .ie = some v) (k : Kw) (p : Prefix) : (Sz.kw k p : Sz L).compat lc br = false := by
  cases k <;> cases p <;> simp [Sz.compat, CompatFeature.isCompatible, CompatFeature.guards, Guard.pass, hv]

example : (fun b => if b = Browser.ie then some 720896 else none : Browsers) .ie = some 720896 := rfl

end Verif.Size
