import Verif.Font.Lemmas
/-! # C141: font families -/
namespace Verif.Font
open Verif.Transition (kw)
open Verif.Font.Spec

section
variable {L A : Type}

/-- What a family stands for. -/
def Family.meaning : Family → FamilyV
  | .generic g => .keyword g.text
  | .name s => .name s

theorem generic_mem (g : Generic) : g.text ∈ generic ++ wide := by cases g <;> decide
theorem mem_generic {k : Str} (h : k ∈ generic ++ wide) : ∃ g : Generic, g.text = k := by
  simp only [generic, wide, List.cons_append, List.nil_append, List.mem_cons, List.not_mem_nil, or_false] at h
  rcases h with rfl | rfl | rfl | rfl | rfl | rfl | rfl | rfl | rfl | rfl | rfl | rfl | rfl | rfl | rfl | rfl | rfl | rfl | rfl
  · exact ⟨.serif, rfl⟩
  · exact ⟨.sansSerif, rfl⟩
  · exact ⟨.cursive, rfl⟩
  · exact ⟨.fantasy, rfl⟩
  · exact ⟨.monospace, rfl⟩
  · exact ⟨.systemUi, rfl⟩
  · exact ⟨.emoji, rfl⟩
  · exact ⟨.math, rfl⟩
  · exact ⟨.fangsong, rfl⟩
  · exact ⟨.uiSerif, rfl⟩
  · exact ⟨.uiSansSerif, rfl⟩
  · exact ⟨.uiMonospace, rfl⟩
  · exact ⟨.uiRounded, rfl⟩
  · exact ⟨.initial, rfl⟩
  · exact ⟨.inherit, rfl⟩
  · exact ⟨.unset, rfl⟩
  · exact ⟨.default, rfl⟩
  · exact ⟨.revert, rfl⟩
  · exact ⟨.revertLayer, rfl⟩

theorem generic_none {s : Str} (h : parseKw Generic.all Generic.text s = none) : ∀ k ∈ generic ++ wide, ¬word s k := by
  intro k hk
  obtain ⟨g, rfl⟩ := mem_generic hk
  intro hw
  rw [(generic_iff s g).2 hw] at h
  cases h

/-! ### Printing -/

/-- A name that can be written without quotes: it does not begin or end with a space, and none of its words is a CSS-wide keyword. -/
def NameOk (n : Str) : Prop := n.head? ≠ some ' ' ∧ n.getLast? ≠ some ' ' ∧ ∀ w ∈ splitSp n, ∀ k ∈ wide, ¬word w k

theorem printName_text (idLen : Str → Nat) (n : Str) (h : NameOk n) : FamilyText (printName idLen n : List (Tok L A)) (.name n) := by
  obtain ⟨h1, h2, h3⟩ := h
  unfold printName
  split
  · rename_i hc
    obtain ⟨hne, hg⟩ := hc
    split
    · exact .str n
    · rename_i h2s
      simp only
      split
      · have h2s' : hasTwoSp n = false := by cases hh : hasTwoSp n <;> simp_all
        cases hs : splitSp n with
        | nil => exact absurd hs (splitSp_ne n)
        | cons w ws =>
          obtain ⟨i1, i2⟩ := words_ne n h2s' h2 w ws hs
          have hw : w ≠ [] := by
            intro hw
            rcases i2 hw with h0 | h0
            · exact hne h0
            · exact h1 h0
          have hf : (w :: ws).filter (· ≠ []) = w :: ws := by
            rw [List.filter_eq_self]
            intro v hv
            rcases List.mem_cons.1 hv with rfl | hv
            · simpa using hw
            · simpa using i1 v hv
          have hj := join_split n
          rw [hf]
          rw [joinSp_eq, hs] at hj
          have := FamilyText.idents (L := L) (A := A) (w :: ws) (by simp) (by rw [← hs]; exact h3) (by
            intro v hv k hk
            rw [hv] at hj
            have : v = n := by simpa [List.intercalate] using hj
            rw [this]
            exact generic_none (by simpa using hg) k (by simp [hk]))
          rw [hj] at this
          exact this
      · exact .str n
  · exact .str n

theorem family_text (idLen : Str → Nat) (f : Family) (h : ∀ n, f = .name n → NameOk n) : FamilyText (f.print idLen : List (Tok L A)) f.meaning := by
  cases f with
  | generic g => exact .keyword _ _ (generic_mem g) (by cases g <;> rfl)
  | name n => exact printName_text idLen n (h n rfl)

/-- C141 (part): what is written for a list of families stands for the same families. Missing: names that begin or end with a space, and names with a CSS-wide keyword as a word (`C141_space_fails`, `C141_wide_fails`). -/
theorem C141_print_partial (idLen : Str → Nat) : ∀ (fs : List Family), fs ≠ [] → (∀ n, .name n ∈ fs → NameOk n) →
    FamiliesText (printFamilies idLen fs : List (Tok L A)) (fs.map Family.meaning)
  | [], h, _ => absurd rfl h
  | [f], _, h => .one (family_text idLen f (fun n hn => h n (by simp [hn])))
  | f :: g :: r, _, h => .cons (family_text idLen f (fun n hn => h n (by simp [hn]))) (C141_print_partial idLen (g :: r) (by simp) (fun n hn => h n (by
      simp only [List.mem_cons] at hn ⊢; exact .inr hn)))

/-! ### Reading -/

theorem takeIdents_spec : ∀ l : List (Tok L A), l = (takeIdents l).1.map .ident ++ (takeIdents l).2
  | [] => rfl
  | .ident s :: r => by
    have := takeIdents_spec r
    simp only [takeIdents, List.map_cons, List.cons_append]
    rw [← this]
  | .str _ :: _ => rfl
  | .num _ :: _ => rfl
  | .pct _ :: _ => rfl
  | .len _ :: _ => rfl
  | .angle _ :: _ => rfl
  | .slash :: _ => rfl
  | .comma :: _ => rfl

theorem takeIdents_all (ws : List Str) (r : List (Tok L A)) (hr : r = [] ∨ ∃ r', r = .comma :: r') : takeIdents (ws.map .ident ++ r) = (ws, r) := by
  induction ws with
  | nil => rcases hr with rfl | ⟨r', rfl⟩ <;> rfl
  | cons w ws ih => simp [takeIdents, ih]

/-- A name has no CSS-wide keyword among its words. -/
def WideFree (n : Str) : Prop := ∀ w ∈ splitSp n, ∀ k ∈ wide, ¬word w k

theorem wide_nospace {w k : Str} (hk : k ∈ wide) (h : word w k) : ' ' ∉ w := by
  intro hs
  have : Char.toLower ' ' ∈ w.map Char.toLower := List.mem_map.2 ⟨' ', hs, rfl⟩
  rw [h] at this
  simp only [wide, List.mem_cons, List.not_mem_nil, or_false] at hk
  rcases hk with rfl | rfl | rfl | rfl | rfl | rfl <;> revert this <;> decide

/-- One family that is read. -/
theorem parseFamily_sound (l r : List (Tok L A)) (f : Family) (h : parseFamily l = some (f, r)) (hw : ∀ n, f = .name n → WideFree n) :
    ∃ t, l = t ++ r ∧ FamilyText t f.meaning := by
  have hname : ∀ l : List (Tok L A), (∀ s r', l = .ident s :: r' → parseKw Generic.all Generic.text s = none) →
      (parseName l).map (fun x => (Family.name x.1, x.2)) = some (f, r) → ∃ t, l = t ++ r ∧ FamilyText t f.meaning := by
    intro l hg h
    cases l with
    | nil => cases h
    | cons a l =>
      cases a with
      | str s => simp only [parseName, Option.map_some, Option.some.injEq, Prod.mk.injEq] at h; obtain ⟨rfl, rfl⟩ := h; exact ⟨[.str s], rfl, .str s⟩
      | ident s =>
        simp only [parseName, Option.map_some, Option.some.injEq, Prod.mk.injEq] at h
        obtain ⟨rfl, rfl⟩ := h
        refine ⟨(s :: (takeIdents l).1).map .ident, ?_, ?_⟩
        · have := takeIdents_spec l
          rw [List.map_cons, List.cons_append, ← this]
        · rw [Family.meaning, joinSp_eq]
          refine .idents _ (by simp) ?_ ?_
          · intro w hwm k hk hkw
            refine hw _ rfl w ?_ k hk hkw
            exact mem_split_join _ w hwm (wide_nospace hk hkw) (by simp)
          · intro w hw1 k hk
            simp only [List.cons.injEq] at hw1
            rw [← hw1.1]
            exact generic_none (hg s l rfl) k (by simp [hk])
      | _ => cases h
  unfold parseFamily at h
  split at h
  · rename_i s r'
    split at h
    · rename_i g hg
      simp only [Option.some.injEq, Prod.mk.injEq] at h
      obtain ⟨rfl, rfl⟩ := h
      exact ⟨[.ident s], rfl, .keyword _ _ (generic_mem g) ((generic_iff s g).1 hg)⟩
    · rename_i hg
      exact hname _ (by intro s' r'' he; cases he; exact hg) h
  · rename_i hn
    exact hname l (by intro s' r'' he; exact absurd he (hn s' r'')) h

/-- C141 (part): a list of families that is accepted stands for these families by the specification. Missing: names with a CSS-wide keyword as a word, which are accepted although they are invalid. -/
theorem C141_read_partial : ∀ (n : Nat) (l : List (Tok L A)) (fs : List Family), parseFamilies n l = some fs → (∀ s, .name s ∈ fs → WideFree s) →
    FamiliesText l (fs.map Family.meaning)
  | 0, _, _, h, _ => by cases h
  | n + 1, l, fs, h, hw => by
    simp only [parseFamilies] at h
    split at h
    · rename_i f hf
      cases h
      obtain ⟨t, rfl, ht⟩ := parseFamily_sound l [] f hf (fun s hs => hw s (by simp [hs]))
      rw [List.append_nil]
      exact .one ht
    · rename_i f r hf
      cases hr : parseFamilies n r with
      | none => rw [hr] at h; cases h
      | some fs' =>
        rw [hr] at h
        cases h
        obtain ⟨t, rfl, ht⟩ := parseFamily_sound l (.comma :: r) f hf (fun s hs => hw s (by simp [hs]))
        exact .cons ht (C141_read_partial n r fs' hr (fun s hs => hw s (by simp [hs])))
    · cases h

/-- A valid family is read, if it does not begin with a generic family that is part of a name. -/
theorem parseFamily_complete (t : List (Tok L A)) (v : FamilyV) (h : FamilyText t v) (r : List (Tok L A)) (hr : r = [] ∨ ∃ r', r = .comma :: r')
    (hg : ∀ s u r', t = .ident s :: .ident u :: r' → ∀ k ∈ generic, ¬word s k) : ∃ f, parseFamily (t ++ r) = some (f, r) ∧ f.meaning = v := by
  cases h with
  | keyword s k hk hw =>
    obtain ⟨g, rfl⟩ := mem_generic hk
    refine ⟨.generic g, ?_, rfl⟩
    simp only [parseFamily, List.cons_append, List.nil_append]
    rw [(generic_iff s g).2 hw]
  | str s => exact ⟨.name s, rfl, rfl⟩
  | idents ws h0 hw1 hg1 =>
    cases ws with
    | nil => exact absurd rfl h0
    | cons w ws =>
      refine ⟨.name (joinSp (w :: ws)), ?_, by rw [Family.meaning, joinSp_eq]⟩
      have hn : parseKw Generic.all Generic.text w = none := by
        rw [parseKw_none]
        intro g _ hwd
        have := generic_mem g
        rw [List.mem_append] at this
        rcases this with hk | hk
        · cases ws with
          | nil => exact hg1 w rfl _ hk hwd
          | cons u us => exact hg w u (us.map .ident) rfl _ hk hwd
        · exact hw1 w (by simp) _ hk hwd
      simp only [parseFamily, List.map_cons, List.cons_append]
      rw [hn]
      simp only [parseName, takeIdents_all ws r hr, Option.map_some]

/-- C141 (part): a valid list of families is accepted and stands for the same families. Missing: names that begin with the name of a generic family without quotes; they are kept as they are. -/
theorem C141_accept_partial (l : List (Tok L A)) (vs : List FamilyV) (h : FamiliesText l vs)
    (hg : ∀ x s u y, l = x ++ .ident s :: .ident u :: y → ∀ k ∈ generic, ¬word s k) :
    ∀ n, l.length < n → ∃ fs, parseFamilies n l = some fs ∧ fs.map Family.meaning = vs := by
  induction h with
  | one h =>
    intro n hn
    cases n with
    | zero => omega
    | succ n =>
      obtain ⟨f, hf, hm⟩ := parseFamily_complete _ _ h [] (.inl rfl) (by intro s u r' he; exact hg [] s u r' he)
      rw [List.append_nil] at hf
      exact ⟨[f], by simp [parseFamilies, hf], by simp [hm]⟩
  | @cons t ts f0 fs0 h hs ih =>
    intro n hn
    cases n with
    | zero => omega
    | succ n =>
      obtain ⟨f, hf, hm⟩ := parseFamily_complete _ _ h (.comma :: ts) (.inr ⟨_, rfl⟩) (by
        intro s u r' he; exact hg [] s u (r' ++ .comma :: ts) (by rw [he]; rfl))
      obtain ⟨fs, h1, h2⟩ := ih (by
        intro x s u y he; exact hg (t ++ .comma :: x) s u y (by rw [he]; simp)) n (by
          simp only [List.length_append, List.length_cons] at hn; omega)
      exact ⟨f :: fs, by simp [parseFamilies, hf, h1], by simp [hm, h2]⟩

end

/-! ### Examples -/

example : NameOk cs!"Times New Roman" := by
  refine ⟨by decide, by decide, ?_⟩
  unfold word; decide
example : (printFamilies List.length [.name cs!"Times New Roman", .generic .serif, .name cs!"serif"] : List (Tok Nat Nat)) =
    [.ident cs!"Times", .ident cs!"New", .ident cs!"Roman", .comma, .ident cs!"serif", .comma, .str cs!"serif"] := by decide
example : parseFamilies 8 ([.ident cs!"Times", .ident cs!"New", .comma, .ident cs!"SERIF", .comma, .str cs!"serif"] : List (Tok Nat Nat)) =
    some [.name cs!"Times New", .generic .serif, .name cs!"serif"] := by decide

/-- C141 fails for a name that ends with a space: it is written without it. -/
theorem C141_space_fails : ∃ n : Str, (printName List.length n : List (Tok Nat Nat)) = [.ident cs!"a"] ∧ n ≠ cs!"a" := ⟨cs!"a ", by decide, by decide⟩

/-- C141 fails for a name that is one space: nothing is written. -/
theorem C141_blank_fails : ∃ n : Str, (printName List.length n : List (Tok Nat Nat)) = [] := ⟨cs!" ", by decide⟩

theorem familyText_wide (l : List (Tok Nat Nat)) (v : FamilyV) (h : FamilyText l v) (s t : Str) (hl : l = [.ident s, .ident t]) : ∀ k ∈ wide, ¬word s k := by
  cases h with
  | keyword s' k hk hw => cases hl
  | str s' => cases hl
  | idents ws h0 hw hg =>
    cases ws with
    | nil => cases hl
    | cons w ws =>
      simp only [List.map_cons, List.cons.injEq, Tok.ident.injEq] at hl
      rw [← hl.1]
      exact hw w (by simp)

/-- C141 fails for a name with a CSS-wide keyword as a word: it is written as identifiers, which is invalid. -/
theorem C141_wide_fails : ∃ n : Str, ∀ v, ¬FamilyText (printName List.length n : List (Tok Nat Nat)) v :=
  ⟨cs!"inherit a", fun v h => familyText_wide _ v h cs!"inherit" cs!"a" (by decide) cs!"inherit" (by decide) rfl⟩

end Verif.Font
