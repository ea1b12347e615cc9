import Verif.Printer.TreeSpec
/-! Lemmas about the printed token stream and the indentation. -/
namespace Verif.Printer

theorem exec_append (m : Bool) (a b : List Op) (st : St) : exec m (a ++ b) st = exec m b (exec m a st) := List.foldl_append

theorem tokens_append (a b : List Piece) : tokens (a ++ b) = tokens a ++ tokens b := by simp [tokens]

theorem run_append (ts us : List Tok) : ∀ r : Reader, r.run (ts ++ us) = (r.run ts).bind (·.run us) := by
  induction ts with
  | nil => intro r; rfl
  | cons t ts ih =>
    intro r
    simp only [List.cons_append, Reader.run]
    cases r.step t with
    | none => rfl
    | some r' => simpa using ih r'

/-- Under the override `v`, the operations print something that is read as `items`, leave the override at `w` and, if `p`, leave the last
declaration unended. -/
def Prints (m : Bool) (ops : List Op) (v w : Nat) (items : List Item) (p : Bool) : Prop :=
  ∀ st : St, st.vp = v → ∃ ps, (exec m ops st).out = st.out ++ ps ∧ (exec m ops st).vp = w ∧
    ∀ r : Reader, r.pending = false → r.run (tokens ps) = some ⟨r.stack, r.cur ++ items, p⟩

theorem prints_nil (m : Bool) (v : Nat) : Prints m [] v v [] false := by
  intro st hv
  refine ⟨[], by simp [exec], by simpa [exec] using hv, ?_⟩
  rintro ⟨s, c, p⟩ hr
  simp only at hr
  simp [tokens, Reader.run, hr]

theorem Prints.append {m : Bool} {a b : List Op} {u v w : Nat} {i j : List Item} {p : Bool}
    (ha : Prints m a u v i false) (hb : Prints m b v w j p) : Prints m (a ++ b) u w (i ++ j) p := by
  intro st hu
  obtain ⟨ps, h1, h2, h3⟩ := ha st hu
  obtain ⟨qs, k1, k2, k3⟩ := hb (exec m a st) h2
  refine ⟨ps ++ qs, by rw [exec_append, k1, h1, List.append_assoc], by rw [exec_append, k2], ?_⟩
  intro r hr
  rw [tokens_append, run_append, h3 r hr]
  simp only [Option.bind_some]
  rw [k3 _ rfl, List.append_assoc]

theorem prints_white {m : Bool} {op : Op} (v : Nat) (h : op = .nl ∨ op = .rawnl ∨ op = .indent ∨ op = .dedent) : Prints m [op] v v [] false := by
  have key : ∀ st : St, ∃ ps, (exec m [op] st).out = st.out ++ ps ∧ tokens ps = [] ∧ (exec m [op] st).vp = st.vp := by
    intro st
    rcases h with rfl | rfl | rfl | rfl
    · cases m
      · exact ⟨[.nl st.indent], rfl, rfl, rfl⟩
      · exact ⟨[], by simp [exec, exec1], rfl, rfl⟩
    · cases m
      · exact ⟨[.rawnl], rfl, rfl, rfl⟩
      · exact ⟨[], by simp [exec, exec1], rfl, rfl⟩
    · exact ⟨[], by simp [exec, exec1], rfl, rfl⟩
    · exact ⟨[], by simp [exec, exec1], rfl, rfl⟩
  intro st hv
  obtain ⟨ps, h1, h2, h3⟩ := key st
  refine ⟨ps, h1, h3.trans hv, ?_⟩
  rintro ⟨s, c, p⟩ hr
  simp only at hr
  simp [h2, Reader.run, hr]

theorem prints_nl (m : Bool) (v : Nat) : Prints m [.nl] v v [] false := prints_white v (Or.inl rfl)
theorem prints_rawnl (m : Bool) (v : Nat) : Prints m [.rawnl] v v [] false := prints_white v (Or.inr (Or.inl rfl))
theorem prints_indent (m : Bool) (v : Nat) : Prints m [.indent] v v [] false := prints_white v (Or.inr (Or.inr (Or.inl rfl)))
theorem prints_dedent (m : Bool) (v : Nat) : Prints m [.dedent] v v [] false := prints_white v (Or.inr (Or.inr (Or.inr rfl)))

theorem prints_vp (m : Bool) (v w : Nat) : Prints m [.vp w] v w [] false := by
  intro st hv
  refine ⟨[], by simp [exec, exec1], rfl, ?_⟩
  rintro ⟨s, c, p⟩ hr
  simp only at hr
  simp [tokens, Reader.run, hr]

theorem prints_decl (m : Bool) (v d : Nat) (i : Bool) : Prints m [.tok (.decl d i)] v v [.decl d i] true := by
  intro st hv
  refine ⟨[.tok (.decl d i)], rfl, hv, ?_⟩
  intro r hr
  simp [tokens, Reader.run, Reader.step, hr]

theorem prints_stmt (m : Bool) (v n : Nat) : Prints m [.tok (.stmt n)] v v [.stmt n] false := by
  intro st hv
  refine ⟨[.tok (.stmt n)], rfl, hv, ?_⟩
  intro r hr
  simp [tokens, Reader.run, Reader.step, hr]

theorem prints_semi (m : Bool) (v : Nat) : Prints m [.tok .semi] v v [] false := by
  intro st hv
  refine ⟨[.tok .semi], rfl, hv, ?_⟩
  intro r hr
  simp [tokens, Reader.run, Reader.step]

theorem Prints.semi {m : Bool} {a : List Op} {u v : Nat} {i : List Item} {p : Bool} (h : Prints m a u v i p) :
    Prints m (a ++ [.tok .semi]) u v i false := by
  intro st hu
  obtain ⟨ps, h1, h2, h3⟩ := h st hu
  refine ⟨ps ++ [.tok .semi], by rw [exec_append]; show (exec m a st).out ++ _ = _; rw [h1, List.append_assoc], by rw [exec_append]; exact h2, ?_⟩
  intro r hr
  rw [tokens_append, run_append, h3 r hr]
  simp [tokens, Reader.run, Reader.step]

/-- White space after an unended declaration. -/
theorem Prints.white {m : Bool} {a : List Op} {op : Op} {u v : Nat} {i : List Item} {p : Bool} (h : Prints m a u v i p)
    (hop : op = .nl ∨ op = .rawnl ∨ op = .indent ∨ op = .dedent) : Prints m (a ++ [op]) u v i p := by
  intro st hu
  obtain ⟨ps, h1, h2, h3⟩ := h st hu
  have key : ∀ st : St, ∃ ps, (exec m [op] st).out = st.out ++ ps ∧ tokens ps = [] ∧ (exec m [op] st).vp = st.vp := by
    intro st
    rcases hop with rfl | rfl | rfl | rfl
    · cases m
      · exact ⟨[.nl st.indent], rfl, rfl, rfl⟩
      · exact ⟨[], by simp [exec, exec1], rfl, rfl⟩
    · cases m
      · exact ⟨[.rawnl], rfl, rfl, rfl⟩
      · exact ⟨[], by simp [exec, exec1], rfl, rfl⟩
    · exact ⟨[], by simp [exec, exec1], rfl, rfl⟩
    · exact ⟨[], by simp [exec, exec1], rfl, rfl⟩
  obtain ⟨qs, k1, k2, k3⟩ := key (exec m a st)
  refine ⟨ps ++ qs, by rw [exec_append, k1, h1, List.append_assoc], by rw [exec_append, k3, h2], ?_⟩
  intro r hr
  rw [tokens_append, run_append, h3 r hr, k2]; rfl

/-- A block. -/
theorem Prints.block {m : Bool} {body : List Op} {v w : Nat} {q : Prelude} {i : List Item} {p : Bool} (op : Op)
    (hop : ∀ st : St, st.vp = v → exec1 m st op = { st with out := st.out ++ [.tok (.open q)] }) (h : Prints m body v w i p) :
    Prints m (op :: (body ++ [.tok .close])) v w [.block q i] false := by
  intro st hv
  obtain ⟨ps, h1, h2, h3⟩ := h { st with out := st.out ++ [.tok (.open q)] } hv
  have e : exec m (op :: (body ++ [.tok .close])) st = exec1 m (exec m body { st with out := st.out ++ [.tok (.open q)] }) (.tok .close) := by
    show exec m (body ++ [.tok .close]) (exec1 m st op) = _
    rw [hop st hv, exec_append]; rfl
  refine ⟨.tok (.open q) :: ps ++ [.tok .close], ?_, ?_, ?_⟩
  · rw [e]; simp [exec1, h1]
  · rw [e]; simpa [exec1] using h2
  · intro r hr
    have ht : tokens (.tok (.open q) :: ps ++ [.tok .close]) = .open q :: (tokens ps ++ [.close]) := by simp [tokens]
    rw [ht]
    simp only [Reader.run, Reader.step, hr, Bool.false_eq_true, if_false, Option.bind_some]
    rw [run_append, h3 _ rfl]
    simp [Reader.run, Reader.step]

theorem Prints.braces {m : Bool} {body : List Op} {v w : Nat} {q : Prelude} {i : List Item} {p : Bool} (op : Op)
    (hop : ∀ st : St, st.vp = v → exec1 m st op = { st with out := st.out ++ [.tok (.open q)] }) (h : Prints m body v w i p) :
    Prints m (op :: .indent :: (body ++ [.dedent, .nl, .tok .close])) v w [.block q i] false := by
  have hb : Prints m ([.indent] ++ body ++ [.dedent] ++ [.nl]) v w i p :=
    Prints.white (Prints.white ((prints_indent m v).append h) (Or.inr (Or.inr (Or.inr rfl)))) (Or.inl rfl)
  have := Prints.block op hop hb
  simpa using this

/-- The declarations of a block as they are read back. -/
def declItems (ds : Decls) : List Item := ds.filterMap fun (d, i) => d.map fun d => .decl d i

/-- Whether the last declaration is left unended. -/
def pendDecls (o : Opts) (hasNested : Bool) (ds : Decls) : Bool := o.minify && !hasNested && !ds.isEmpty && ds.all (·.1.isSome)

theorem prints_declOps (o : Opts) (hn : Bool) (len v : Nat) : ∀ (ds : Decls) (i : Nat), i + ds.length ≤ len →
    Prints o.minify (declOps o hn len i ds) v v (declItems ds)
      (o.minify && !hn && !ds.isEmpty && ds.all (·.1.isSome) && decide (i + ds.length = len))
  | [], i, _ => by simpa [declOps, declItems] using prints_nil o.minify v
  | (none, b) :: ds, i, h => by
    have ih := prints_declOps o hn len v ds i (by simp at h; omega)
    have hne : ¬ i + ds.length = len := by simp at h; omega
    simpa [declOps, declItems, hne] using ih
  | (some d, b) :: ds, i, h => by
    have ih := prints_declOps o hn len v ds (i + 1) (by simp at h; omega)
    have h0 : Prints o.minify (if i > 0 then [Op.nl] else []) v v [] false := by
      split
      · exact prints_nl _ _
      · exact prints_nil _ _
    have hd := h0.append (prints_decl o.minify v d b)
    have hitems : declItems ((some d, b) :: ds) = [.decl d b] ++ declItems ds := rfl
    simp only [declOps]
    rw [hitems]
    by_cases hs : (i ≠ len - 1 ∨ (!o.minify) = true ∨ hn = true)
    · rw [if_pos hs]
      have := hd.semi.append ih
      have e : (o.minify && !hn && !((some d, b) :: ds).isEmpty && ((some d, b) :: ds).all (·.1.isSome) &&
          decide (i + ((some d, b) :: ds).length = len)) =
          (o.minify && !hn && !ds.isEmpty && ds.all (·.1.isSome) && decide (i + 1 + ds.length = len)) := by
        have e1 : i + ((some d, b) :: ds).length = i + 1 + ds.length := by simp; omega
        rw [e1]
        cases hm : o.minify with
        | false => simp
        | true =>
          cases hh : hn with
          | true => simp
          | false =>
            cases ds with
            | nil =>
              have : ¬ (i + 1 = len) := by
                rcases hs with h1 | h1 | h1
                · simp at h; omega
                · simp [hm] at h1
                · simp [hh] at h1
              simp [this]
            | cons x ds => simp
      rw [e]
      simpa using this
    · rw [if_neg hs]
      simp only [not_or, not_not] at hs
      obtain ⟨h1, h2, h3⟩ := hs
      have hnil : ds = [] := by
        cases ds with
        | nil => rfl
        | cons x ds => simp at h; omega
      subst hnil
      have : (i + 1 = len) := by simp at h; omega
      simp only [Bool.not_eq_true', Bool.not_eq_true, Bool.not_eq_false] at h2 h3
      simpa [declOps, declItems, this, h2, h3] using hd

theorem prints_decls (o : Opts) (hn : Bool) (v : Nat) (ds : Decls) :
    Prints o.minify (toCssDeclarations o hn ds) v v (declItems ds) (pendDecls o hn ds) := by
  have := prints_declOps o hn ds.length v ds 0 (by omega)
  simpa [toCssDeclarations, pendDecls] using this

theorem prints_block (o : Opts) (v n : Nat) (ds : Decls) : Prints o.minify (toCssBlock o (.leaf n) ds) v v [.block (.leaf n) (declItems ds)] false := by
  have h := (prints_nl o.minify v).append (prints_decls o false v ds)
  have := Prints.braces (.tok (.open (.leaf n))) (q := .leaf n) (by intro st _; rfl) h
  simpa [toCssBlock] using this

theorem prints_fontOps (o : Opts) (v len : Nat) : ∀ (ds : List Nat) (i : Nat), i + ds.length = len →
    ∃ p, Prints o.minify (fontOps o len i ds) v v (ds.map fun d => .decl d false) p
  | [], i, _ => ⟨false, by simpa [fontOps] using prints_nil o.minify v⟩
  | d :: ds, i, h => by
    obtain ⟨p, ih⟩ := prints_fontOps o v len ds (i + 1) (by simp at h; omega)
    have hd := (prints_nl o.minify v).append (prints_decl o.minify v d false)
    simp only [fontOps]
    by_cases hs : i ≠ len - 1 ∨ (!o.minify) = true
    · rw [if_pos hs]
      exact ⟨p, by simpa using hd.semi.append ih⟩
    · rw [if_neg hs]
      have hnil : ds = [] := by
        cases ds with
        | nil => rfl
        | cons x ds => simp at h; simp only [not_or, not_not] at hs; omega
      subst hnil
      exact ⟨true, by simpa [fontOps] using hd⟩

theorem prints_pageDecls (o : Opts) (v len : Nat) : ∀ (ds : List (Nat × Bool)) (i : Nat), i + ds.length ≤ len →
    ∃ p, Prints o.minify (pageDecls o len i ds) v v (ds.map fun d => .decl d.1 d.2) p ∧ (i + ds.length < len → p = false)
  | [], i, _ => ⟨false, by simpa [pageDecls] using prints_nil o.minify v, fun _ => rfl⟩
  | (d, b) :: ds, i, h => by
    obtain ⟨p, ih, hp⟩ := prints_pageDecls o v len ds (i + 1) (by simp at h; omega)
    have hd := (prints_nl o.minify v).append (prints_decl o.minify v d b)
    simp only [pageDecls]
    by_cases hs : i ≠ len - 1 ∨ (!o.minify) = true
    · rw [if_pos hs]
      exact ⟨p, by simpa using hd.semi.append ih, fun hl => hp (by simp at hl; omega)⟩
    · rw [if_neg hs]
      have hnil : ds = [] := by
        cases ds with
        | nil => rfl
        | cons x ds => simp at h; simp only [not_or, not_not] at hs; omega
      subst hnil
      refine ⟨true, by simpa [pageDecls] using hd, fun hl => ?_⟩
      simp only [not_or, not_not] at hs; simp at hl; omega

theorem prints_marginOps (o : Opts) (v : Nat) : ∀ (ms : List (Nat × Decls)) (first : Bool),
    Prints o.minify (marginOps o first ms) v v (ms.map fun m => .block (.leaf m.1) (declItems m.2)) false
  | [], _ => by simpa [marginOps] using prints_nil o.minify v
  | (n, ds) :: ms, first => by
    have h0 : Prints o.minify (if first then [] else [Op.rawnl, Op.nl]) v v [] false := by
      split
      · exact prints_nil _ _
      · exact (prints_rawnl _ _).append (prints_nl _ _)
    exact (h0.append (prints_block o v n ds)).append (prints_marginOps o v ms false)

theorem prints_frameOps (o : Opts) (v : Nat) : ∀ (ms : List (Nat × Decls)) (first : Bool),
    Prints o.minify (frameOps o first ms) v v (ms.map fun m => .block (.leaf m.1) (declItems m.2)) false
  | [], _ => by simpa [frameOps] using prints_nil o.minify v
  | (n, ds) :: ms, first => by
    have h0 : Prints o.minify (if first then [] else [Op.rawnl]) v v [] false := by
      split
      · exact prints_nil _ _
      · exact prints_rawnl _ _
    exact ((h0.append (prints_nl _ _)).append (prints_block o v n ds)).append (prints_frameOps o v ms false)

theorem prints_keyframesOps (o : Opts) (v : Nat) (fs : List (Nat × Decls)) : ∀ (names : List Nat) (first : Bool),
    Prints o.minify (keyframesOps o fs first names) v v
      (names.map fun n => .block (.leaf n) (fs.map fun m => .block (.leaf m.1) (declItems m.2))) false
  | [], _ => by simpa [keyframesOps] using prints_nil o.minify v
  | n :: names, first => by
    have h0 : Prints o.minify (if first then [] else [Op.rawnl, Op.nl]) v v [] false := by
      split
      · exact prints_nil _ _
      · exact (prints_rawnl _ _).append (prints_nl _ _)
    have hb := Prints.braces (.tok (.open (.leaf n))) (q := .leaf n) (by intro st _; rfl) (prints_frameOps o v fs true)
    have := (h0.append hb).append (prints_keyframesOps o v fs names false)
    simpa [keyframesOps] using this

end Verif.Printer
