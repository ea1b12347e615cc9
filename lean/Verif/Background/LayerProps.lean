import Verif.Background.LayerLemmas
namespace Verif.Background
open Spec
variable {V : Type}

theorem written_append (cs cs' : List (Comp V)) (ts ts' : List (Tok V)) (h : Written cs ts) (h' : Written cs' ts') : Written (cs ++ cs') (ts ++ ts') := by
  induction h with
  | nil => exact h'
  | cons c cs t ts hw _ ih => rw [List.append_assoc]; exact .cons _ _ _ _ hw ih

theorem written_one (c : Comp V) (t : List (Tok V)) (h : Writes c t) : Written [c] t := by
  have := Written.cons c [] t [] h .nil
  rwa [List.append_nil] at this

theorem written_if (p : Prop) [Decidable p] (c : Comp V) (t : List (Tok V)) (h : Writes c t) : Written (if p then [c] else []) (if p then t else []) := by
  by_cases hp : p
  · rw [if_pos hp, if_pos hp]; exact written_one c t h
  · rw [if_neg hp, if_neg hp]; exact .nil

/-- The component of a clip. -/
def clipComp : Clip → Comp V
  | .box b => .box b
  | .border => .clip .border
  | .text => .clip .text

theorem writes_clip (c : Clip) : Writes (clipComp c : Comp V) (printClip c) := by cases c <;> constructor

theorem writes_repeat (r : Rep × Rep) : Writes (.rep r.1 r.2 : Comp V) (printRepeat r) := by
  obtain ⟨x, y⟩ := r
  cases x <;> cases y <;> first | exact .repeatX | exact .repeatY | exact .rep1 _ | exact .rep2 _ _

variable [DecidableEq V]

theorem writes_size (z : BSize V) : WritesSize z (printSize z) := by
  cases z with
  | cover => exact .cover
  | contain => exact .contain
  | explicit w h =>
    have hl : ∀ w : Len V, ∃ t, printLen w = [t] ∧ WritesLen w t := by
      intro w; cases w with
      | auto => exact ⟨_, rfl, .auto⟩
      | len v => exact ⟨_, rfl, .len v⟩
    obtain ⟨t, ht, wt⟩ := hl w
    obtain ⟨u, hu, wu⟩ := hl h
    rw [printSize, ht]
    by_cases hh : h = .auto
    · rw [if_neg (fun n => n hh), hh]; exact .one _ _ wt
    · rw [if_pos hh, hu]; exact .two _ _ _ _ wt wu

/-- The components that are written. -/
def written (d : Defaults V) (l : Full V) : List (Comp V) :=
    (if l.color ≠ d.color then [.color l.color] else []) ++
    (if l.image ≠ d.image then [.image l.image] else []) ++
    (if d.zero l.position = false ∨ l.size ≠ .explicit .auto .auto then [.position l.position (if l.size ≠ .explicit .auto .auto then some l.size else none)] else []) ++
    (if l.rep ≠ (.repeat, .repeat) then [.rep l.rep.1 l.rep.2] else []) ++
    (if l.attachment ≠ .scroll then [.attachment l.attachment] else []) ++
    (if outputPaddingBox l then [.box l.origin] else []) ++
    (if (outputPaddingBox l ∧ l.clip ≠ .box l.origin) ∨ l.clip ≠ .box .border then [clipComp l.clip] else [])

theorem boxes_written (d : Defaults V) (l : Full V) :
    boxes (written d l) = boxes ((if outputPaddingBox l then [.box l.origin] else []) ++ (if (outputPaddingBox l ∧ l.clip ≠ .box l.origin) ∨ l.clip ≠ .box .border then [clipComp l.clip] else []) : List (Comp V)) ∧
    keywords (written d l) = keywords ((if outputPaddingBox l then [.box l.origin] else []) ++ (if (outputPaddingBox l ∧ l.clip ≠ .box l.origin) ∨ l.clip ≠ .box .border then [clipComp l.clip] else []) : List (Comp V)) := by
  unfold written
  generalize ((if outputPaddingBox l then [.box l.origin] else []) : List (Comp V)) = A
  generalize (if (outputPaddingBox l ∧ l.clip ≠ .box l.origin) ∨ l.clip ≠ .box .border then [clipComp l.clip] else [] : List (Comp V)) = B
  constructor
  · simp only [boxes, List.filterMap_append, apply_ite (List.filterMap _), List.filterMap_cons, List.filterMap_nil, ite_self, List.nil_append]
  · simp only [keywords, List.filterMap_append, apply_ite (List.filterMap _), List.filterMap_cons, List.filterMap_nil, ite_self, List.nil_append]

omit [DecidableEq V] in
/-- The component of a clip has only boxes and keywords. -/
theorem clipComp_none (c : Clip) : colors [clipComp c] = ([] : List V) ∧ images [clipComp c] = ([] : List V) ∧ positions [clipComp c] = ([] : List (V × Option (BSize V))) ∧ reps [(clipComp c : Comp V)] = [] ∧ attachments [(clipComp c : Comp V)] = [] := by
  cases c <;> exact ⟨rfl, rfl, rfl, rfl, rfl⟩

theorem parts_written (d : Defaults V) (l : Full V) :
    colors (written d l) = (if l.color ≠ d.color then [l.color] else []) ∧
    images (written d l) = (if l.image ≠ d.image then [l.image] else []) ∧
    positions (written d l) = (if d.zero l.position = false ∨ l.size ≠ .explicit .auto .auto then [(l.position, if l.size ≠ .explicit .auto .auto then some l.size else none)] else []) ∧
    reps (written d l) = (if l.rep ≠ (.repeat, .repeat) then [l.rep] else []) ∧
    attachments (written d l) = (if l.attachment ≠ .scroll then [l.attachment] else []) := by
  obtain ⟨h1, h2, h3, h4, h5⟩ := clipComp_none (V := V) l.clip
  unfold written
  generalize clipComp l.clip = C at *
  simp only [colors, images, positions, reps, attachments] at *
  refine ⟨?_, ?_, ?_, ?_, ?_⟩
  · simp only [List.filterMap_append, apply_ite (List.filterMap _), h1]
    simp only [List.filterMap_cons, List.filterMap_nil, ite_self, List.append_nil]
  · simp only [List.filterMap_append, apply_ite (List.filterMap _), h2]
    simp only [List.filterMap_cons, List.filterMap_nil, ite_self, List.append_nil, List.nil_append]
  · simp only [List.filterMap_append, apply_ite (List.filterMap _), h3]
    simp only [List.filterMap_cons, List.filterMap_nil, ite_self, List.append_nil, List.nil_append]
  · simp only [List.filterMap_append, apply_ite (List.filterMap _), h4]
    simp only [List.filterMap_cons, List.filterMap_nil, ite_self, List.append_nil, List.nil_append]
  · simp only [List.filterMap_append, apply_ite (List.filterMap _), h5]
    simp only [List.filterMap_cons, List.filterMap_nil, ite_self, List.append_nil, List.nil_append]

/-- What the boxes are read as. -/
theorem boxes_read (d : Defaults V) (l : Full V) :
    (keywords (written d l)).length ≤ 1 ∧ (boxes (written d l)).length + (keywords (written d l)).length ≤ 2 ∧
    l.origin = (boxes (written d l)).head?.getD .padding ∧
    l.clip = match keywords (written d l), boxes (written d l) with
    | k :: _, _ => k
    | [], [] => .box .border
    | [], [b] => .box b
    | [], _ :: b :: _ => .box b := by
  obtain ⟨hb, hk⟩ := boxes_written d l
  rw [hb, hk]
  obtain ⟨_, _, _, _, _, _, o, c⟩ := l
  cases c with
  | box c => cases o <;> cases c <;> simp [outputPaddingBox, Clip.isBox, boxes, keywords, clipComp]
  | border => cases o <;> simp [outputPaddingBox, Clip.isBox, boxes, keywords, clipComp]
  | text => cases o <;> simp [outputPaddingBox, Clip.isBox, boxes, keywords, clipComp]

theorem written_written (d : Defaults V) (l : Full V) : Written (written d l)
    ((if l.color ≠ d.color then [.color l.color] else []) ++
    (if l.image ≠ d.image then [.image l.image] else []) ++
    (if d.zero l.position = false ∨ l.size ≠ .explicit .auto .auto then
      .pos l.position :: (if l.size ≠ .explicit .auto .auto then .slash :: printSize l.size else []) else []) ++
    (if l.rep ≠ (.repeat, .repeat) then printRepeat l.rep else []) ++
    (if l.attachment ≠ .scroll then [.att l.attachment] else []) ++
    (if outputPaddingBox l then [.box l.origin] else []) ++
    (if (outputPaddingBox l ∧ l.clip ≠ .box l.origin) ∨ l.clip ≠ .box .border then printClip l.clip else [])) := by
  refine written_append _ _ _ _ (written_append _ _ _ _ (written_append _ _ _ _ (written_append _ _ _ _ (written_append _ _ _ _ (written_append _ _ _ _ ?_ ?_) ?_) ?_) ?_) ?_) ?_
  · exact written_if _ _ _ (.color _)
  · exact written_if _ _ _ (.image _)
  · refine written_if _ _ _ ?_
    by_cases h : l.size ≠ .explicit .auto .auto
    · rw [if_pos h, if_pos h]; exact .sized _ _ _ (writes_size _)
    · rw [if_neg h, if_neg h]; exact .position _
  · exact written_if _ _ _ (writes_repeat _)
  · exact written_if _ _ _ (.attachment _)
  · exact written_if _ _ _ (.box _)
  · exact written_if _ _ _ (writes_clip _)

omit [DecidableEq V] in
theorem valid_one (c : Comp V) : ValidLayer [c] := by
  constructor <;> cases c <;> simp [colors, images, positions, reps, attachments, keywords, boxes]

omit [DecidableEq V] in
theorem len_if {α : Type} (p : Prop) [Decidable p] (a : α) : (if p then [a] else []).length ≤ 1 := by
  by_cases h : p
  · rw [if_pos h]; exact Nat.le_refl _
  · rw [if_neg h]; exact Nat.zero_le _

theorem head_if {α : Type} [DecidableEq α] (a b : α) : (if a ≠ b then [a] else []).head?.getD b = a := by
  by_cases h : a = b
  · rw [if_neg (fun n => n h)]; exact h.symm
  · rw [if_pos h]; rfl

/-- **C154** A printed layer is read back as a layer that looks the same: same colour, image, size, repetition, attachment, origin and clip, and the same position (where all positions with two offsets of zero are the same), minified or not. -/
theorem C154_round_trip (d : Defaults V) (hz : d.zero d.position = true) (minify : Bool) (l : Full V) :
    ∃ l', parseLayer d (printLayer d minify l) = some l' ∧ Same d.zero l' l := by
  have hw := written_written d l
  obtain ⟨h1, h2, h3, h4, h5⟩ := parts_written d l
  obtain ⟨b1, b2, b3, b4⟩ := boxes_read d l
  unfold printLayer
  simp only
  generalize ((if l.color ≠ d.color then [.color l.color] else []) ++
    (if l.image ≠ d.image then [.image l.image] else []) ++
    (if d.zero l.position = false ∨ l.size ≠ .explicit .auto .auto then
      .pos l.position :: (if l.size ≠ .explicit .auto .auto then .slash :: printSize l.size else []) else []) ++
    (if l.rep ≠ (.repeat, .repeat) then printRepeat l.rep else []) ++
    (if l.attachment ≠ .scroll then [.att l.attachment] else []) ++
    (if outputPaddingBox l then [.box l.origin] else []) ++
    (if (outputPaddingBox l ∧ l.clip ≠ .box l.origin) ∨ l.clip ≠ .box .border then printClip l.clip else []) : List (Tok V)) = out at hw ⊢
  generalize hW : written d l = W at *
  have hv : ValidLayer W := ⟨by rw [h1]; exact len_if _ _, by rw [h2]; exact len_if _ _, by rw [h3]; exact len_if _ _, by rw [h4]; exact len_if _ _, by rw [h5]; exact len_if _ _, b1, b2⟩
  have hm : Means d.color d.image d.position W { l with position := ((positions W).head?.map (·.1)).getD d.position } := by
    refine ⟨?_, ?_, rfl, ?_, ?_, ?_, b3, b4⟩
    · rw [h1]; exact (head_if _ _).symm
    · rw [h2]; exact (head_if _ _).symm
    · rw [h3]
      by_cases hs : l.size = .explicit .auto .auto
      · by_cases hp : d.zero l.position = false
        · simp [hs, hp]
        · simp [hs, hp]
      · simp [hs]
    · rw [h4]; exact (head_if _ _).symm
    · rw [h5]; exact (head_if _ _).symm
  have hsame : Same d.zero { l with position := ((positions W).head?.map (·.1)).getD d.position } l := by
    refine ⟨rfl, rfl, ?_, rfl, rfl, rfl, rfl, rfl⟩
    show ((positions W).head?.map (·.1)).getD d.position = l.position ∨ (d.zero (((positions W).head?.map (·.1)).getD d.position) = true ∧ d.zero l.position = true)
    rw [h3]
    by_cases hc : d.zero l.position = false ∨ l.size ≠ .explicit .auto .auto
    · rw [if_pos hc]; exact .inl rfl
    · rw [if_neg hc]
      refine .inr ⟨hz, ?_⟩
      cases hz' : d.zero l.position with
      | true => rfl
      | false => exact absurd (.inl hz') hc
  by_cases ho : out.isEmpty = true
  · rw [if_pos ho]
    have ho' : out = [] := List.isEmpty_iff.1 ho
    subst ho'
    have hnil : W = [] := by
      generalize hq : ([] : List (Tok V)) = q at hw
      cases hw with
      | nil => rfl
      | cons c cs t ts h' _ =>
        have := writes_length c t h'
        have hl := congrArg List.length hq
        rw [List.length_append] at hl
        simp only [List.length_nil] at hl
        omega
    subst hnil
    have hp : d.zero l.position = true := by
      cases hz' : d.zero l.position with
      | true => rfl
      | false => rw [if_pos (.inl hz')] at h3; cases h3
    cases minify with
    | true =>
      refine ⟨l, (parse_iff d _ _).2 ⟨[.position l.position none], valid_one _, written_one _ _ (.position _), ?_⟩, ⟨rfl, rfl, .inl rfl, rfl, rfl, rfl, rfl, rfl⟩⟩
      obtain ⟨m1, m2, m3, m4, m5, m6, m7, m8⟩ := hm
      exact ⟨m1, m2, rfl, m4, m5, m6, m7, m8⟩
    | false =>
      refine ⟨_, (parse_iff d _ _).2 ⟨[.image d.image], valid_one _, written_one _ _ (.image _), ?_⟩, hsame⟩
      obtain ⟨m1, m2, m3, m4, m5, m6, m7, m8⟩ := hm
      exact ⟨m1, m2, m3, m4, m5, m6, m7, m8⟩
  · rw [if_neg ho]
    exact ⟨_, (parse_iff d out _).2 ⟨W, hv, hw, hm⟩, hsame⟩

/-- Numbers for values: 0 is the default, `0 1` are zero positions. -/
def numDefaults : Defaults Nat := ⟨0, 0, 0, fun p => p ≤ 1⟩

/-- A layer with many values other than the default, and the text it is read back from. -/
example : printLayer numDefaults true ⟨5, 6, 1, (.repeat, .noRepeat), .explicit .auto (.len 3), .fixed, .padding, .box .content⟩
    = [.color 6, .image 5, .pos 1, .slash, .auto, .len 3, .repeatX, .att .fixed, .box .padding, .box .content] := by decide
example : printLayer numDefaults true ⟨0, 0, 1, (.repeat, .repeat), .explicit .auto .auto, .scroll, .padding, .box .border⟩ = [.pos 1] := by decide
example : parseLayer numDefaults [.pos 1, .slash, .auto, .len 3, .repeatX, .box .padding, .text] = some ⟨0, 0, 1, (.repeat, .noRepeat), .explicit .auto (.len 3), .scroll, .padding, .text⟩ := by decide

omit [DecidableEq V] in
/-- **C155 (partial)** A layer is read if and only if its text is made of the components of a layer, in any order, each at most once (but two boxes), and it is read as what these components mean: the first box is the origin, the second one the clip, and one box alone is both. What is missing: the empty list of components is read as well (`C155_empty`), and a colour is read in layers other than the last (`C155_color`). -/
theorem C155_layers_partial (d : Defaults V) (ts : List (Tok V)) (l : Full V) :
    parseLayer d ts = some l ↔ ∃ cs, ValidLayer cs ∧ Written cs ts ∧ Means d.color d.image d.position cs l := parse_iff d ts l

/-- A text with components in an order other than the printed one. -/
example : ∃ l, parseLayer numDefaults [.box .content, .rep .space, .rep .round, .text, .pos 4, .slash, .cover, .color 7] = some l ∧ l.origin = .content ∧ l.clip = .text ∧ l.size = .cover :=
  ⟨⟨0, 7, 4, (.space, .round), .cover, .scroll, .content, .text⟩, by decide, rfl, rfl, rfl⟩
/-- Two positions, or a size without position, are no layer. -/
example : parseLayer numDefaults [.pos 1, .color 3, .pos 4] = none ∧ parseLayer numDefaults [.slash, .cover] = none := by decide

omit [DecidableEq V] in
/-- **C155 (counterexample)** `background:` without any value is accepted (CSS requires one component) and becomes `background: 0 0`, a valid declaration that resets all longhands. -/
theorem C155_empty (d : Defaults V) : ∃ l, parseLayer d [] = some l ∧ l.image = d.image := ⟨_, rfl, rfl⟩

/-- **C155 (counterexample)** A colour in a layer other than the last makes a declaration invalid in CSS, here it is accepted: `background: red, url(x)`. -/
theorem C155_color : parseLayers numDefaults [[.color 1], [.image 2]]
    = some [⟨0, 1, 0, (.repeat, .repeat), .explicit .auto .auto, .scroll, .padding, .box .border⟩, ⟨2, 0, 0, (.repeat, .repeat), .explicit .auto .auto, .scroll, .padding, .box .border⟩] := by decide

end Verif.Background
