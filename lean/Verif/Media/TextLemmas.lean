import Verif.Media.LogicLemmas
/-! Helper lemmas about feature names and keyword texts. -/
namespace Verif.Media

theorem lowerChar_idem (c : Char) : lowerChar (lowerChar c) = lowerChar c := by
  by_cases h : 'A' ≤ c ∧ c ≤ 'Z'
  · have h1 : 65 ≤ c.toNat := h.1
    have h2 : c.toNat ≤ 90 := h.2
    have hc : c = Char.ofNat c.toNat := (Char.ofNat_toNat c).symm
    have : ∀ n, n ≤ 90 → 65 ≤ n → lowerChar (lowerChar (Char.ofNat n)) = lowerChar (Char.ofNat n) := by
      decide
    rw [hc]
    exact this _ h2 h1
  · have : lowerChar c = c := by simp [lowerChar, h]
    rw [this, this]

theorem lowerAscii_idem (s : Str) : lowerAscii (lowerAscii s) = lowerAscii s := by
  simp [lowerAscii, lowerChar_idem]

theorem lowerAscii_append (a b : Str) : lowerAscii (a ++ b) = lowerAscii a ++ lowerAscii b := by
  simp [lowerAscii]

theorem lowerAscii_drop (n : Nat) (a : Str) : lowerAscii (a.drop n) = (lowerAscii a).drop n := by
  simp [lowerAscii]

theorem lowerAscii_take (n : Nat) (a : Str) : lowerAscii (a.take n) = (lowerAscii a).take n := by
  simp [lowerAscii]

/-- `Name.parse` on the lower-cased text, without the dashed-identifier case. -/
def nameKey (l : Str) : Option (FeatureId × Option Cmp) :=
  let w := l.take 8 == cs!"-webkit-"
  let n := if w then l.drop 8 else l
  let p : Str × Option Cmp :=
    if n.take 4 == cs!"min-" then (n.drop 4, some .ge)
    else if n.take 4 == cs!"max-" then (n.drop 4, some .le)
    else (n, none)
  let n := if w then cs!"-webkit-" ++ p.1 else p.1
  match FeatureId.all.find? fun id => id.name == n with
  | some id => some (id, p.2)
  | none => none

theorem lower_webkit : lowerAscii cs!"-webkit-" = cs!"-webkit-" := by decide

theorem Name.parse_eq (s : Str) :
    Name.parse s = if s.take 2 == cs!"--" then (.custom s, none)
      else match nameKey (lowerAscii s) with
        | some (id, c) => (.standard id, c)
        | none => (.unknown s, none) := by
  unfold Name.parse
  by_cases hd : (s.take 2 == cs!"--") = true
  · simp only [hd, if_true]
  · simp only [hd, Bool.false_eq_true, if_false]
    simp only [startsWithIC, nameKey, FeatureId.parse]
    have e8 : cs!"-webkit-".length = 8 := by decide
    have e4 : cs!"min-".length = 4 := by decide
    have e4' : cs!"max-".length = 4 := by decide
    simp only [e8, e4, e4']
    by_cases hw : ((lowerAscii s).take 8 == cs!"-webkit-") = true
    · simp only [hw, if_true, lowerAscii_drop]
      by_cases hmin : ((List.drop 8 (lowerAscii s)).take 4 == cs!"min-") = true
      · simp only [hmin, if_true, lowerAscii_append, lower_webkit, lowerAscii_drop]
        generalize (FeatureId.all.find? _) = o; cases o <;> rfl
      · simp only [hmin, Bool.false_eq_true, if_false]
        by_cases hmax : ((List.drop 8 (lowerAscii s)).take 4 == cs!"max-") = true
        · simp only [hmax, if_true, lowerAscii_append, lower_webkit, lowerAscii_drop]
          generalize (FeatureId.all.find? _) = o; cases o <;> rfl
        · simp only [hmax, Bool.false_eq_true, if_false, lowerAscii_append, lower_webkit, lowerAscii_drop]
          generalize (FeatureId.all.find? _) = o; cases o <;> rfl
    · simp only [hw, Bool.false_eq_true, if_false]
      by_cases hmin : ((lowerAscii s).take 4 == cs!"min-") = true
      · simp only [hmin, if_true, lowerAscii_drop]
        generalize (FeatureId.all.find? _) = o; cases o <;> rfl
      · simp only [hmin, Bool.false_eq_true, if_false]
        by_cases hmax : ((lowerAscii s).take 4 == cs!"max-") = true
        · simp only [hmax, if_true, lowerAscii_drop]
          generalize (FeatureId.all.find? _) = o; cases o <;> rfl
        · simp only [hmax, Bool.false_eq_true, if_false]
          generalize (FeatureId.all.find? _) = o; cases o <;> rfl

theorem FeatureId.mem_all (id : FeatureId) : id ∈ FeatureId.all := by cases id <;> decide

theorem nameKey_bare (id : FeatureId) : nameKey id.name = some (id, none) := by
  cases id <;> decide +kernel

theorem nameKey_pre (id : FeatureId) (h : id ≠ .webKitDevicePixelRatio) :
    nameKey (cs!"min-" ++ id.name) = some (id, some .ge) ∧
    nameKey (cs!"max-" ++ id.name) = some (id, some .le) := by
  cases id <;> first | exact absurd rfl h | decide +kernel

theorem nameKey_of_text {l : Str} {id : FeatureId} {c : Option Cmp} (h : NameText l id c) :
    nameKey l = some (id, c) := by
  cases h with
  | bare => exact nameKey_bare id
  | min _ h => exact (nameKey_pre id h).1
  | max _ h => exact (nameKey_pre id h).2
  | wkMin => decide +kernel
  | wkMax => decide +kernel

/-- The two texts the code wrongly accepts for `-webkit-min/max-device-pixel-ratio`. -/
def oddNames : List Str :=
  [cs!"min--webkit-device-pixel-ratio", cs!"max--webkit-device-pixel-ratio"]

theorem find_name {n : Str} {id : FeatureId} (h : (FeatureId.all.find? fun id => id.name == n) = some id) :
    id.name = n := by
  have := List.find?_some h
  simpa using this

theorem webkit_only : ∀ id : FeatureId, id.name.take 8 = cs!"-webkit-" → id = .webKitDevicePixelRatio := by
  intro id; cases id <;> decide +kernel

theorem append_drop_of_take {l p : Str} {n : Nat} (h : l.take n = p) : l = p ++ l.drop n := by
  rw [← h]; exact (List.take_append_drop n l).symm

theorem text_of_nameKey {l : Str} {id : FeatureId} {c : Option Cmp} (h : nameKey l = some (id, c))
    (hodd : l ∉ oddNames) : NameText l id c := by
  unfold nameKey at h
  by_cases hw : (l.take 8 == cs!"-webkit-") = true
  · have hw' := append_drop_of_take (eq_of_beq hw)
    simp only [hw, if_true] at h
    generalize l.drop 8 = n at h hw'
    by_cases hmin : (n.take 4 == cs!"min-") = true
    · have hm' := append_drop_of_take (eq_of_beq hmin)
      simp only [hmin, if_true] at h
      split at h
      · rename_i id' hf
        cases h
        have hn := find_name hf
        have hid := webkit_only id (by rw [hn]; rfl)
        subst hid
        have hx : n.drop 4 = cs!"device-pixel-ratio" := by
          have : cs!"-webkit-" ++ cs!"device-pixel-ratio" = cs!"-webkit-" ++ n.drop 4 := by
            rw [← hn]; decide
          exact (List.append_cancel_left this).symm
        have : l = cs!"-webkit-min-device-pixel-ratio" := by
          rw [hw', hm', hx]; decide
        rw [this]
        exact .wkMin
      · contradiction
    · by_cases hmax : (n.take 4 == cs!"max-") = true
      · have hm' := append_drop_of_take (eq_of_beq hmax)
        simp only [hmin, hmax, if_true, Bool.false_eq_true, if_false] at h
        split at h
        · rename_i id' hf
          cases h
          have hn := find_name hf
          have hid := webkit_only id (by rw [hn]; rfl)
          subst hid
          have hx : n.drop 4 = cs!"device-pixel-ratio" := by
            have : cs!"-webkit-" ++ cs!"device-pixel-ratio" = cs!"-webkit-" ++ n.drop 4 := by
              rw [← hn]; decide
            exact (List.append_cancel_left this).symm
          have : l = cs!"-webkit-max-device-pixel-ratio" := by
            rw [hw', hm', hx]; decide
          rw [this]
          exact .wkMax
        · contradiction
      · simp only [hmin, hmax, Bool.false_eq_true, if_false] at h
        split at h
        · rename_i id' hf
          cases h
          have hn := find_name hf
          rw [hw', ← hn]
          exact .bare id
        · contradiction
  · simp only [hw, Bool.false_eq_true, if_false] at h
    by_cases hmin : (l.take 4 == cs!"min-") = true
    · have hm' := append_drop_of_take (eq_of_beq hmin)
      simp only [hmin, if_true] at h
      split at h
      · rename_i id' hf
        cases h
        have hn := find_name hf
        rw [← hn] at hm'
        rw [hm']
        refine .min id ?_
        rintro rfl
        exact hodd (by rw [hm']; decide)
      · contradiction
    · by_cases hmax : (l.take 4 == cs!"max-") = true
      · have hm' := append_drop_of_take (eq_of_beq hmax)
        simp only [hmin, hmax, if_true, Bool.false_eq_true, if_false] at h
        split at h
        · rename_i id' hf
          cases h
          have hn := find_name hf
          rw [← hn] at hm'
          rw [hm']
          refine .max id ?_
          rintro rfl
          exact hodd (by rw [hm']; decide)
        · contradiction
      · simp only [hmin, hmax, Bool.false_eq_true, if_false] at h
        split at h
        · rename_i id' hf
          cases h
          rw [← find_name hf]
          exact .bare id
        · contradiction

theorem nameText_dash {l : Str} {id : FeatureId} {c : Option Cmp} (h : NameText l id c) :
    l.take 2 ≠ cs!"--" := by
  cases h with
  | bare => cases id <;> decide +kernel
  | min => intro h; exact absurd (show (cs!"min-" ++ id.name).take 2 = cs!"mi" from rfl) (by rw [h]; decide)
  | max => intro h; exact absurd (show (cs!"max-" ++ id.name).take 2 = cs!"ma" from rfl) (by rw [h]; decide)
  | wkMin => decide
  | wkMax => decide

theorem unknown_of_dash {s : Str} (h : s.take 2 = cs!"--") : UnknownText s := by
  intro id c ht
  exact nameText_dash ht (by rw [← lowerAscii_take, h]; decide)

theorem unknown_of_nameKey {s : Str} (h : nameKey (lowerAscii s) = none) : UnknownText s := by
  intro id c ht
  rw [nameKey_of_text ht] at h
  contradiction

theorem nameKey_of_unknown {s : Str} (h : UnknownText s) (hodd : lowerAscii s ∉ oddNames) :
    nameKey (lowerAscii s) = none := by
  cases hk : nameKey (lowerAscii s) with
  | none => rfl
  | some p => exact absurd (text_of_nameKey hk hodd) (h p.1 p.2)

theorem Name.parse_standard {s : Str} {id : FeatureId} {c : Option Cmp} (h : NameText (lowerAscii s) id c) :
    Name.parse s = (.standard id, c) := by
  rw [Name.parse_eq]
  have hd : ¬ (s.take 2 == cs!"--") = true := by
    intro hd
    exact unknown_of_dash (eq_of_beq hd) id c h
  simp only [hd, Bool.false_eq_true, if_false, nameKey_of_text h]

/-- What `Name.parse` returns, in terms of the specification's name texts. -/
theorem Name.parse_cases (s : Str) (hodd : lowerAscii s ∉ oddNames) :
    (∃ id c, NameText (lowerAscii s) id c ∧ Name.parse s = (.standard id, c)) ∨
    (UnknownText s ∧ (Name.parse s = (.custom s, none) ∨ Name.parse s = (.unknown s, none))) := by
  rw [Name.parse_eq]
  by_cases hd : (s.take 2 == cs!"--") = true
  · exact .inr ⟨unknown_of_dash (eq_of_beq hd), .inl (by simp only [hd, if_true])⟩
  · simp only [hd, Bool.false_eq_true, if_false]
    cases hk : nameKey (lowerAscii s) with
    | none => exact .inr ⟨unknown_of_nameKey hk, .inr rfl⟩
    | some p => exact .inl ⟨p.1, p.2, text_of_nameKey hk hodd, rfl⟩

end Verif.Media
