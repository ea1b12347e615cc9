import Verif.Page.Model
/-! C216: the selectors of `@page` survive being printed. -/

namespace Verif.Page

/-- Whether a list of characters may start an identifier without escapes. -/
def startOk : List Char → Bool
  | [] => false
  | c :: cs => startCh c || (c == '-' && (startOk cs || cs.head? == some '-'))

/-- A name that is an identifier without any escapes: name characters only, and it does not start like a number. -/
def plainName (s : List Char) : Prop := (∀ c ∈ s, nameCh c = true) ∧ startOk s = true

instance (s : List Char) : Decidable (plainName s) := by unfold plainName; infer_instance

/-- The tokens do not start with a name. -/
def NoId (ts : List Tok) : Prop := ∀ s ok ts', ts ≠ .ident s ok :: ts'

theorem nameCh_ne (c d : Char) (h : nameCh c = true) (hd : nameCh d = false) : c ≠ d := by
  rintro rfl; rw [h] at hd; cases hd

theorem tok_cons (c : Char) (cs : List Char) (h : c ≠ '\\') :
    tok (c :: cs) = if c = ' ' ∨ c = '\n' ∨ c = '\t' then consWs (tok cs)
    else if c = ':' then .colon :: tok cs
    else if c = ',' then .comma :: tok cs
    else if c = '@' then consAt (tok cs)
    else if nameCh c then consName c false (tok cs)
    else .other c :: tok cs := by
  rw [tok.eq_def]
  split
  · rename_i h'; cases h'
  · rename_i h'; cases h'; exact absurd rfl h
  · rename_i h'; cases h'; rfl

theorem tok_nameCh (c : Char) (cs : List Char) (h : nameCh c = true) : tok (c :: cs) = consName c false (tok cs) := by
  have n := fun d hd => nameCh_ne c d h hd
  rw [tok_cons c cs (n _ (by decide))]
  simp [n ' ' (by decide), n '\n' (by decide), n '\t' (by decide), n ':' (by decide), n ',' (by decide), n '@' (by decide), h]

theorem tok_name (s : List Char) (hs : s ≠ []) (h : ∀ c ∈ s, nameCh c = true) (rest : List Char) (hr : NoId (tok rest)) :
    tok (s ++ rest) = .ident s (startOk s) :: tok rest := by
  induction s with
  | nil => exact absurd rfl hs
  | cons c cs ih =>
    rw [List.cons_append, tok_nameCh c _ (h c (by simp))]
    by_cases hc : cs = []
    · subst hc
      rw [List.nil_append]
      unfold consName
      split
      · rename_i e; exact absurd e (hr _ _ _)
      · simp [startOk]
    · rw [ih hc (fun d hd => h d (by simp [hd]))]
      simp [consName, startOk]

theorem pseudo_nameCh (p : Pseudo) : ∀ c ∈ p.str, nameCh c = true := by cases p <;> decide
theorem pseudo_ne (p : Pseudo) : p.str ≠ [] := by cases p <;> decide
theorem pseudo_start (p : Pseudo) : startOk p.str = true := by cases p <;> decide
theorem pseudo_str (p : Pseudo) : Pseudo.ofStr p.str = some p := by cases p <;> decide

theorem tok_colon (cs : List Char) : tok (':' :: cs) = .colon :: tok cs := by
  rw [tok_cons _ _ (by decide)]; simp
theorem tok_comma (cs : List Char) : tok (',' :: cs) = .comma :: tok cs := by
  rw [tok_cons _ _ (by decide)]; simp
theorem tok_sp (cs : List Char) : tok (' ' :: cs) = consWs (tok cs) := by
  rw [tok_cons _ _ (by decide)]; simp
theorem tok_at (cs : List Char) : tok ('@' :: cs) = consAt (tok cs) := by
  rw [tok_cons _ _ (by decide)]; simp

theorem noId_cons (t : Tok) (ts : List Tok) (h : ∀ s ok, t ≠ .ident s ok) : NoId (t :: ts) := by
  intro s ok ts' e; cases e; exact h s ok rfl
theorem noId_nil : NoId [] := by intro s ok ts' e; cases e
theorem noId_consWs (ts : List Tok) : NoId (consWs ts) := by
  unfold consWs; split <;> exact noId_cons _ _ (by intro _ _ h; cases h)

/-- The tokens of pseudo classes. -/
def pseudoToks (ps : List Pseudo) : List Tok := ps.flatMap (fun p => [.colon, .ident p.str true])

theorem noId_pseudos (ps : List Pseudo) (ts : List Tok) (h : NoId ts) : NoId (pseudoToks ps ++ ts) := by
  cases ps with
  | nil => exact h
  | cons p ps => exact noId_cons _ _ (by intro _ _ h; cases h)

theorem tok_pseudos (ps : List Pseudo) (rest : List Char) (hr : NoId (tok rest)) :
    tok (ps.flatMap (fun p => ':' :: p.str) ++ rest) = pseudoToks ps ++ tok rest := by
  induction ps with
  | nil => rfl
  | cons p ps ih =>
    have : (p :: ps).flatMap (fun p => ':' :: p.str) ++ rest =
        ':' :: (p.str ++ (ps.flatMap (fun p => ':' :: p.str) ++ rest)) := by simp
    rw [this, tok_colon, tok_name _ (pseudo_ne p) (pseudo_nameCh p) _ (by rw [ih]; exact noId_pseudos ps _ hr), pseudo_start, ih]
    rfl

/-- The tokens of a selector. -/
def selToks (s : Sel) : List Tok :=
  (match s.name with | some n => [Tok.ident n true] | none => []) ++ pseudoToks s.pseudos

/-- What every parsed selector is, but for the name: it has a name or a pseudo class; here its name needs no escapes. -/
def Plain (s : Sel) : Prop := (∀ n, s.name = some n → plainName n) ∧ (s.name ≠ none ∨ s.pseudos ≠ [])

theorem plainName_ne (n : List Char) (h : plainName n) : n ≠ [] := by rintro rfl; cases h.2

theorem tok_sel (s : Sel) (hs : Plain s) (rest : List Char) (hr : NoId (tok rest)) :
    tok (printSel s ++ rest) = selToks s ++ tok rest := by
  unfold printSel selToks
  rw [List.append_assoc]
  cases hn : s.name with
  | none => simpa [hn] using tok_pseudos s.pseudos rest hr
  | some n =>
    have h := hs.1 n hn
    have h2 := tok_pseudos s.pseudos rest hr
    rw [Option.getD_some, tok_name n (plainName_ne n h) h.1 _ (by rw [h2]; exact noId_pseudos _ _ hr), h.2, h2]
    simp

/-- White space in tokens, unless minified. -/
def gap (minify : Bool) : List Tok := if minify then [] else [.ws]

/-- The tokens of selectors with commas. -/
def selsToks (minify : Bool) : List Sel → List Tok
  | [] => []
  | [s] => selToks s
  | s :: ss => selToks s ++ .comma :: (gap minify ++ selsToks minify ss)

/-- The tokens do not start with white space. -/
def NoWs (ts : List Tok) : Prop := ∀ ts', ts ≠ .ws :: ts'

theorem consWs_of (ts : List Tok) (h : NoWs ts) : consWs ts = .ws :: ts := by
  unfold consWs; split
  · rename_i e; exact absurd rfl (h _)
  · rfl

theorem noWs_sel (s : Sel) (hs : Plain s) (ts : List Tok) : NoWs (selToks s ++ ts) := by
  intro ts' e
  unfold selToks at e
  cases hn : s.name with
  | some n => rw [hn] at e; cases e
  | none =>
    rw [hn] at e
    cases hp : s.pseudos with
    | nil => rcases hs.2 with h | h <;> contradiction
    | cons p ps => rw [hp] at e; cases e

theorem noWs_sels (minify : Bool) (ss : List Sel) (hs : ∀ s ∈ ss, Plain s) (hne : ss ≠ []) (ts : List Tok) :
    NoWs (selsToks minify ss ++ ts) := by
  match ss, hne with
  | [s], _ => exact noWs_sel s (hs s (by simp)) ts
  | s :: t :: ss, _ =>
    show NoWs ((selToks s ++ _) ++ ts)
    rw [List.append_assoc]
    exact noWs_sel s (hs s (by simp)) _

theorem tok_sels (minify : Bool) (ss : List Sel) (hs : ∀ s ∈ ss, Plain s) (rest : List Char) (hr : NoId (tok rest)) :
    tok (printSels minify ss ++ rest) = selsToks minify ss ++ tok rest := by
  match ss with
  | [] => rfl
  | [s] => exact tok_sel s (hs s (by simp)) rest hr
  | s :: t :: ss =>
    have ih := tok_sels minify (t :: ss) (fun x hx => hs x (by simp [hx])) rest hr
    have hc : tok ((',' :: ((if minify then [] else [' ']) ++ printSels minify (t :: ss))) ++ rest) =
        .comma :: (gap minify ++ (selsToks minify (t :: ss) ++ tok rest)) := by
      rw [List.cons_append, tok_comma, List.append_assoc]
      cases minify with
      | true => simp only [if_true, List.nil_append, gap]; rw [ih]
      | false =>
        simp only [Bool.false_eq_true, if_false, List.cons_append, List.nil_append, gap]
        rw [tok_sp, ih, consWs_of _ (noWs_sels false (t :: ss) (fun x hx => hs x (by simp [hx])) (by simp) _)]
    show tok ((printSel s ++ _) ++ rest) = (selToks s ++ _) ++ _
    rw [List.append_assoc, tok_sel s (hs s (by simp)) _ (by rw [hc]; exact noId_cons _ _ (by intro _ _ h; cases h)), hc]
    simp

theorem pseudos_toks (ps : List Pseudo) (w : List Tok) (hw : w = [] ∨ w = [.ws]) : pseudos (pseudoToks ps ++ w) = some ps := by
  induction ps with
  | nil => rcases hw with rfl | rfl <;> rfl
  | cons p ps ih =>
    show pseudos (.colon :: .ident p.str true :: (pseudoToks ps ++ w)) = _
    simp [pseudos, pseudo_str, ih]

theorem parseSel_toks (s : Sel) (hs : Plain s) (g w : List Tok) (hg : g = [] ∨ g = [.ws]) (hw : w = [] ∨ w = [.ws]) :
    parseSel (g ++ (selToks s ++ w)) = some s := by
  have h1 : skipWs (g ++ (selToks s ++ w)) = selToks s ++ w := by
    rcases hg with rfl | rfl
    · unfold skipWs; rw [List.nil_append]; split
      · rename_i e; exact absurd e (noWs_sel s hs w _)
      · rfl
    · rfl
  unfold parseSel
  rw [h1]
  obtain ⟨n, ps⟩ := s
  cases n with
  | some n => simp [selToks, pseudos_toks ps w hw]
  | none =>
    cases ps with
    | nil => rcases hs.2 with h | h <;> exact absurd rfl h
    | cons p ps =>
      have := pseudos_toks (p :: ps) w hw
      simp only [selToks, List.nil_append]
      split
      · rename_i e; cases e
      · rw [this]

theorem segs_seg (a : List Tok) (h : .comma ∉ a) : segs a = [a] := by
  induction a with
  | nil => rfl
  | cons t ts ih =>
    have ht : t ≠ .comma := by rintro rfl; exact h (by simp)
    rw [segs.eq_def]
    split
    · rename_i e; cases e
    · rename_i e; cases e; exact absurd rfl ht
    · rename_i e; cases e
      rw [ih (fun h' => h (by simp [h']))]

theorem segs_app (a : List Tok) (h : .comma ∉ a) (ts : List Tok) : segs (a ++ .comma :: ts) = a :: segs ts := by
  induction a with
  | nil => rfl
  | cons t as ih =>
    have ht : t ≠ .comma := by rintro rfl; exact h (by simp)
    rw [List.cons_append, segs.eq_def]
    split
    · rename_i e; cases e
    · rename_i e; cases e; exact absurd rfl ht
    · rename_i e; cases e
      rw [ih (fun h' => h (by simp [h']))]

theorem comma_sel (s : Sel) : .comma ∉ selToks s := by
  unfold selToks pseudoToks
  cases s.name <;> simp

theorem comma_ws (g : List Tok) (hg : g = [] ∨ g = [.ws]) : .comma ∉ g := by rcases hg with rfl | rfl <;> simp

theorem parseAll_toks (minify : Bool) (ss : List Sel) (hs : ∀ s ∈ ss, Plain s) (hne : ss ≠ []) (g w : List Tok)
    (hg : g = [] ∨ g = [.ws]) (hw : w = [] ∨ w = [.ws]) :
    parseAll (segs (g ++ (selsToks minify ss ++ w))) = some ss := by
  match ss, hne with
  | [s], _ =>
    rw [show selsToks minify [s] = selToks s from rfl,
      segs_seg _ (by simp [comma_ws g hg, comma_ws w hw, comma_sel])]
    simp [parseAll, parseSel_toks s (hs s (by simp)) g w hg hw]
  | s :: t :: ss, _ =>
    have ih := parseAll_toks minify (t :: ss) (fun x hx => hs x (by simp [hx])) (by simp) (gap minify) w
      (by cases minify <;> simp [gap]) hw
    have e : g ++ (selsToks minify (s :: t :: ss) ++ w) =
        (g ++ selToks s) ++ .comma :: (gap minify ++ (selsToks minify (t :: ss) ++ w)) := by
      simp [selsToks]
    have h1 := parseSel_toks s (hs s (by simp)) g [] hg (Or.inl rfl)
    rw [List.append_nil] at h1
    rw [e, segs_app _ (by simp [comma_ws g hg, comma_sel])]
    simp [parseAll, h1, ih]

/-- The tokens of `@page` and what follows it. -/
theorem tok_page (rest : List Char) (hr : NoId (tok rest)) :
    tok (['@', 'p', 'a', 'g', 'e'] ++ rest) = .at ['p', 'a', 'g', 'e'] :: tok rest := by
  show tok ('@' :: (['p', 'a', 'g', 'e'] ++ rest)) = _
  rw [tok_at, tok_name _ (by decide) (by decide) _ hr]
  rfl

/-- C216: the selectors of `@page` are printed so that they are read back as they were, minified or not, if the names need no
escapes. Missing: names with escapes, which are written without them (`C216_escape_lost`). -/
theorem C216_page_selectors_partial (minify : Bool) (ss : List Sel) (hs : ∀ s ∈ ss, Plain s) :
    read (print minify ss) = some ss := by
  have hw : ∀ w, w = (if minify then [] else [' ']) → (tok w = [] ∨ tok w = [.ws]) ∧ NoId (tok w) := by
    intro w e
    cases minify <;> subst e
    · exact ⟨Or.inr rfl, noId_cons _ _ (by intro _ _ h; cases h)⟩
    · exact ⟨Or.inl rfl, noId_nil⟩
  obtain ⟨h1, h2⟩ := hw _ rfl
  unfold print
  cases hss : ss with
  | nil =>
    simp only [List.head?_nil]
    cases minify <;> rfl
  | cons f fs =>
    rw [← hss]
    have hne : ss ≠ [] := by simp [hss]
    have hf : Plain f := hs f (by simp [hss])
    have hh : ss.head? = some f := by simp [hss]
    rw [hh]
    simp only [List.append_assoc]
    have ht := tok_sels minify ss hs _ h2
    -- the space before the first selector
    by_cases hsp : (!minify || f.name.isSome) = true
    · have e : tok (' ' :: (printSels minify ss ++ (if minify then [] else [' ']))) =
          .ws :: (selsToks minify ss ++ tok (if minify then [] else [' '])) := by
        rw [tok_sp, ht, consWs_of _ (noWs_sels minify ss hs hne _)]
      rw [if_pos hsp]
      show read (['@', 'p', 'a', 'g', 'e'] ++ (' ' :: (printSels minify ss ++ _))) = _
      unfold read
      rw [tok_page _ (by rw [e]; exact noId_cons _ _ (by intro _ _ h; cases h)), e]
      have := parseAll_toks minify ss hs hne [.ws] _ (Or.inr rfl) h1
      simp only [List.cons_append, List.nil_append] at this
      simp only [parsePrelude, this]
      rfl
    · rw [if_neg hsp, List.nil_append]
      have hnone : f.name = none := by
        cases hn : f.name with
        | none => rfl
        | some n => simp [hn] at hsp
      have hno : NoId (selsToks minify ss ++ tok (if minify then [] else [' '])) := by
        have : ∃ ts, selsToks minify ss ++ tok (if minify then [] else [' ']) = .colon :: ts := by
          obtain ⟨n, ps⟩ := f
          cases ps with
          | nil => rcases hf.2 with h | h <;> contradiction
          | cons p ps =>
            cases hnone
            cases fs with
            | nil => rw [hss]; exact ⟨_, rfl⟩
            | cons g gs => rw [hss]; exact ⟨_, rfl⟩
        obtain ⟨ts, e⟩ := this
        rw [e]; exact noId_cons _ _ (by intro _ _ h; cases h)
      unfold read
      rw [tok_page _ (by rw [ht]; exact hno), ht]
      have := parseAll_toks minify ss hs hne [] _ (Or.inl rfl) h1
      rw [List.nil_append] at this
      simp only [parsePrelude, this]
      rfl

/-- Two selectors with names and pseudo classes; minified and not. -/
example : (∀ s ∈ [(⟨some ['t', 'o', 'c'], [.left, .first]⟩ : Sel), ⟨none, [.blank]⟩], Plain s) ∧
    print true [⟨some ['t', 'o', 'c'], [.left, .first]⟩, ⟨none, [.blank]⟩] = "@page toc:left:first,:blank".toList ∧
    print true [⟨none, [.left]⟩] = "@page:left".toList ∧ print false [⟨none, [.left]⟩] = "@page :left ".toList := by
  refine ⟨?_, by decide, by decide, by decide⟩
  intro s hs
  simp only [List.mem_cons, List.not_mem_nil, or_false] at hs
  rcases hs with rfl | rfl
  · exact ⟨(by intro n h; cases h; decide), Or.inl (by simp)⟩
  · exact ⟨(by intro n h; cases h), Or.inr (by simp)⟩

/-- The names among tokens need no escapes. -/
def Good (ts : List Tok) : Prop := ∀ s ok, Tok.ident s ok ∈ ts → (∀ c ∈ s, nameCh c = true) ∧ ok = startOk s

theorem good_consName (c : Char) (hc : nameCh c = true) (ts : List Tok) (h : Good ts) : Good (consName c false ts) := by
  unfold consName
  split
  · rename_i s ok ts
    obtain ⟨h1, h2⟩ := h s ok (by simp)
    intro s' ok' hm
    rcases List.mem_cons.1 hm with e | e
    · cases e
      refine ⟨?_, ?_⟩
      · intro d hd
        rcases List.mem_cons.1 hd with rfl | hd
        · exact hc
        · exact h1 d hd
      · simp [startOk, h2]
    · exact h s' ok' (by simp [e])
  · intro s' ok' hm
    rcases List.mem_cons.1 hm with e | e
    · cases e
      exact ⟨by simpa using hc, by simp [startOk]⟩
    · exact h s' ok' e

theorem good_cons (t : Tok) (ht : ∀ s ok, t ≠ .ident s ok) (ts : List Tok) (h : Good ts) : Good (t :: ts) := by
  intro s ok hm
  rcases List.mem_cons.1 hm with e | e
  · exact absurd e.symm (ht s ok)
  · exact h s ok e

theorem good_tok (cs : List Char) (h : '\\' ∉ cs) : Good (tok cs) := by
  induction cs with
  | nil => intro s ok hm; cases hm
  | cons c cs ih =>
    have ih := ih (fun h' => h (by simp [h']))
    rw [tok_cons c cs (by rintro rfl; exact h (by simp))]
    split
    · unfold consWs; split
      · rename_i e; rw [← e]; exact ih
      · exact good_cons _ (by intro _ _ h; cases h) _ ih
    split
    · exact good_cons _ (by intro _ _ h; cases h) _ ih
    split
    · exact good_cons _ (by intro _ _ h; cases h) _ ih
    split
    · unfold consAt; split
      · rename_i e
        exact good_cons _ (by intro _ _ h; cases h) _ (fun s ok hm => ih s ok (by rw [e]; simp [hm]))
      · exact good_cons _ (by intro _ _ h; cases h) _ ih
    split
    · rename_i hn; exact good_consName c hn _ ih
    · exact good_cons _ (by intro _ _ h; cases h) _ ih

theorem good_segs (ts : List Tok) (h : Good ts) : ∀ a ∈ segs ts, Good a := by
  induction ts with
  | nil => intro a ha; simp only [segs, List.mem_singleton] at ha; subst ha; exact h
  | cons t ts ih =>
    have hts : Good ts := fun s ok hm => h s ok (by simp [hm])
    have ih := ih hts
    have h1 : ∀ b, Good b → Good (t :: b) := by
      intro b hb s ok hm
      rcases List.mem_cons.1 hm with e | e
      · exact h s ok (by simp [e])
      · exact hb s ok e
    have h0 : Good [] := by intro s ok hm; cases hm
    rw [segs.eq_def]
    split
    · rename_i e; cases e
    · rename_i e; cases e
      intro a ha
      rcases List.mem_cons.1 ha with rfl | ha
      · exact h0
      · exact ih a ha
    · rename_i e; cases e
      split
      · rename_i s ss e
        rw [e] at ih
        intro a ha
        rcases List.mem_cons.1 ha with rfl | ha
        · exact h1 _ (ih _ (by simp))
        · exact ih a (by simp [ha])
      · intro a ha
        simp only [List.mem_singleton] at ha
        subst ha
        exact h1 _ h0

theorem parseSel_plain (ts : List Tok) (h : Good ts) (s : Sel) (hp : parseSel ts = some s) : Plain s := by
  have hg : Good (skipWs ts) := by
    unfold skipWs; split
    · intro s ok hm; exact h s ok (by simp [hm])
    · exact h
  unfold parseSel at hp
  split at hp
  · rename_i n rest e
    obtain ⟨ps, _, rfl⟩ := Option.map_eq_some_iff.1 hp
    obtain ⟨h1, h2⟩ := hg n true (by rw [e]; simp)
    exact ⟨by intro m hm; cases hm; exact ⟨h1, h2.symm⟩, Or.inl (by simp)⟩
  · split at hp
    · cases hp
      exact ⟨(by intro m hm; cases hm), Or.inr (by simp)⟩
    · cases hp

theorem parseAll_plain (l : List (List Tok)) (h : ∀ a ∈ l, Good a) (ss : List Sel) (hp : parseAll l = some ss) :
    ∀ s ∈ ss, Plain s := by
  induction l generalizing ss with
  | nil => cases hp; intro s hs; cases hs
  | cons a l ih =>
    unfold parseAll at hp
    cases h1 : parseSel a with
    | none => rw [h1] at hp; cases hp
    | some x =>
      rw [h1] at hp
      cases h2 : parseAll l with
      | none => rw [h2] at hp; cases hp
      | some xs =>
        rw [h2] at hp
        cases hp
        intro s hs
        rcases List.mem_cons.1 hs with rfl | hs
        · exact parseSel_plain a (h a (by simp)) _ h1
        · exact ih (fun b hb => h b (by simp [hb])) xs h2 s hs

/-- C216, for source text: a prelude of `@page` without backslashes that can be read is read the same when it has been printed,
minified or not. Missing: backslashes (`C216_escape_lost`). -/
theorem C216_page_text_partial (minify : Bool) (text : List Char) (ht : '\\' ∉ text) (ss : List Sel)
    (h : read text = some ss) : read (print minify ss) = some ss := by
  apply C216_page_selectors_partial
  have hg := good_tok text ht
  unfold read at h
  split at h
  · rename_i s ts e
    rw [e] at hg
    split at h
    · unfold parsePrelude at h
      split at h
      · rename_i l h'
        cases h
        exact parseAll_plain _ (good_segs ts (fun s ok hm => hg s ok (by simp [hm]))) _ h'
      · split at h
        · cases h; intro s hs; cases hs
        · cases h
    · cases h
  · cases h

/-- Text with white space and capital letters. -/
example : '\\' ∉ "@PAGE  Toc-1:LEFT ,\n :first".toList ∧
    read "@PAGE  Toc-1:LEFT ,\n :first".toList = some [⟨some "Toc-1".toList, [.left]⟩, ⟨none, [.first]⟩] := by
  constructor <;> decide

/-- C216, the gap: `@page a\:first` names a page type, and is printed as `@page a:first`, the first page of another type; and
`@page \+` is printed as something that is not read at all. -/
theorem C216_escape_lost :
    read "@page a\\:first".toList = some [⟨some "a:first".toList, []⟩] ∧
    print true [⟨some "a:first".toList, []⟩] = "@page a:first".toList ∧
    read "@page a:first".toList = some [⟨some ['a'], [.first]⟩] ∧
    read "@page \\+".toList = some [⟨some ['+'], []⟩] ∧ read (print true [⟨some ['+'], []⟩]) = none := by
  refine ⟨?_, ?_, ?_, ?_, ?_⟩ <;> decide

end Verif.Page
