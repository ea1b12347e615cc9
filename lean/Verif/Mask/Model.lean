/-! Model of the handler of mask properties, `MaskHandler` (src/properties/masking.rs:577-1100). -/

namespace Verif.Mask

/-- `VendorPrefix` (src/vendor_prefix.rs:11-30), with the two prefixes that mask properties come with. -/
structure VP where
  std : Bool
  wk : Bool
  deriving DecidableEq, Repr

namespace VP
/-- Bitwise operations of `VendorPrefix`. -/
def inter (a b : VP) : VP := ⟨a.std && b.std, a.wk && b.wk⟩
@[inherit_doc inter]
def union (a b : VP) : VP := ⟨a.std || b.std, a.wk || b.wk⟩
@[inherit_doc inter]
def sub (a b : VP) : VP := ⟨a.std && !b.std, a.wk && !b.wk⟩
@[inherit_doc inter]
def isEmpty (a : VP) : Bool := !a.std && !a.wk
/-- `contains`: all the bits of `b` are set. -/
def contains (a b : VP) : Bool := (!b.std || a.std) && (!b.wk || a.wk)
end VP

/-- A layer of a mask (src/properties/masking.rs:245-262): image (0), position, size, repeat, clip, origin (5), composite (6) and
mode (7), as numbers, 0 is the default of composite and mode. -/
abbrev Layer := Nat → Nat

/-- A declaration: a prefixed longhand (0 to 5) with a list of values, `mask-composite`, `mask-mode`, `mask`, the properties with
values of another syntax `-webkit-mask-composite` and `-webkit-mask-source-type`, `mask-border`, and properties whose value is not
parsed (it contains `var()`): a longhand (0 to 7) or `mask`. -/
inductive Decl where
  | long (j : Nat) (v : List Nat) (p : VP)
  | comp (v : List Nat)
  | mode (v : List Nat)
  | mask (ls : List Layer) (p : VP)
  | wkComp (v : List Nat)
  | wkMode (v : List Nat)
  | border (v : Nat)
  | rawLong (j : Nat) (t : Nat) (p : VP)
  | rawMask (t : Nat) (p : VP)

/-- The fields of `MaskHandler` (src/properties/masking.rs:579-596): `f` has `images` (0) to `origins` (5). The properties of
`mask-border` are left out but for one field that stands for all of them. `has_any` is left out: it is set whenever a field is, so
`flush` without it does the same. `flushed_properties` only decides whether fallbacks are added, which is left out. -/
structure St where
  f : Nat → Option (List Nat × VP)
  comp : Option (List Nat)
  mode : Option (List Nat)
  border : Option Nat

/-- `Default` of `MaskHandler` (src/properties/masking.rs:577). -/
def St.empty : St := ⟨fun _ => none, none, none, none⟩

/-- The targets: `pre` is `targets.prefixes(_, feature)` for the longhands (0 to 5), `mask-composite` (6) and `mask` (7);
`compat` is `is_compatible` of the values (true without targets, src/properties/masking.rs:614-616). -/
structure Targets where
  pre : Nat → VP → VP
  compat : Nat → List Nat → Bool

/-- The layers whose components are the given lists (`izip!`, src/properties/masking.rs:811-833). -/
def zipLayers (len : Nat) (v : Nat → List Nat) : List Layer :=
  (List.range len).map (fun i j => (v j).getD i 0)

/-- src/properties/masking.rs:956-1004 `flush_mask_shorthand`. -/
def flushShorthand (ms : List Layer) (p : VP) : List Decl :=
  if p.wk && ms.any (fun m => m 6 != 0 || m 7 != 0) then
    [.mask (ms.map (fun m j => if j = 6 ∨ j = 7 then 0 else m j)) ⟨false, true⟩] ++
      (if ms.any (fun m => m 6 != 0) then [.wkComp (ms.map (· 6))] else []) ++
      (if ms.any (fun m => m 7 != 0) then [.wkMode (ms.map (· 7))] else []) ++
      (if (p.sub ⟨false, true⟩).isEmpty then [] else [.mask ms (p.sub ⟨false, true⟩)])
  else [.mask ms p]

/-- src/properties/masking.rs:783-811: the lists and the common prefixes, if the shorthand can be used. -/
def shorthand (s : St) : Option ((Nat → List Nat) × VP) :=
  match s.f 0, s.f 1, s.f 2, s.f 3, s.f 4, s.f 5, s.comp, s.mode with
  | some (v0, p0), some (v1, p1), some (v2, p2), some (v3, p3), some (v4, p4), some (v5, p5), some v6, some v7 =>
    let i := p0.inter (p1.inter (p2.inter (p3.inter (p4.inter p5))))
    if !i.isEmpty && (v1.length == v0.length && v2.length == v0.length && v3.length == v0.length && v4.length == v0.length &&
        v5.length == v0.length && v6.length == v0.length && v7.length == v0.length) then
      some (fun j => match j with | 0 => v0 | 1 => v1 | 2 => v2 | 3 => v3 | 4 => v4 | 5 => v5 | 6 => v6 | _ => v7, i)
    else none
  | _, _, _, _, _, _, _, _ => none

/-- src/properties/masking.rs:877-928: a longhand is written unless its prefixes are all gone. -/
def flushLong (t : Targets) (j : Nat) : Option (List Nat × VP) → List Decl
  | some (v, p) => if p.isEmpty then [] else [.long j v (t.pre j p)]
  | none => []

/-- src/properties/masking.rs:930-940. -/
def flushComp (t : Targets) : Option (List Nat) → List Decl
  | some v => (if (t.pre 6 ⟨true, false⟩).wk then [.wkComp v] else []) ++ [.comp v]
  | none => []

/-- src/properties/masking.rs:942-953. -/
def flushMode (t : Targets) : Option (List Nat) → List Decl
  | some v => (if (t.pre 7 ⟨true, false⟩).wk then [.wkMode v] else []) ++ [.mode v]
  | none => []

/-- src/properties/masking.rs:1006-1100 `flush_mask_border`, one field. -/
def flushBorder : Option Nat → List Decl
  | some b => [.border b]
  | none => []

/-- src/properties/masking.rs:773-954 `flush_mask`. Simplified: no fallbacks, no images with
vendor prefixes, and the prefixes of `mask-image` are extended each time, not only the first time (:891-893). When the shorthand is
written, the lists are drained (:811-820) and the common prefixes removed (:866-871), and what is left of the longhands is written all
the same. -/
def flushMask (t : Targets) (s : St) : List Decl :=
  match shorthand s with
  | some (v, i) =>
    flushShorthand (zipLayers (v 0).length v) (t.pre 7 i) ++
      (List.range 6).flatMap (fun j => flushLong t j ((s.f j).map (fun x => ([], x.2.sub i))))
  | none =>
    (List.range 6).flatMap (fun j => flushLong t j (s.f j)) ++
      flushComp t s.comp ++ flushMode t s.mode

/-- src/properties/masking.rs:762-771 `flush`: the mask properties, then those of `mask-border`. -/
def flush (t : Targets) (s : St) : List Decl :=
  flushMask t s ++ flushBorder s.border

/-- The state with the declarations written so far. -/
abbrev Run := St × List Decl

/-- `self.flush(dest, context)`. -/
def doFlush (t : Targets) (r : Run) : Run := (St.empty, r.2 ++ flush t r.1)

/-- src/properties/masking.rs:605-619 `maybe_flush!`. -/
def maybeFlush (t : Targets) (j : Nat) (v : List Nat) (p : VP) (r : Run) : Run :=
  let r := match r.1.f j with
    | some (val, ps) => if val ≠ v ∧ ps.contains p = false then doFlush t r else r
    | none => r
  if (r.1.f j).isSome && !t.compat j v then doFlush t r else r

/-- src/properties/masking.rs:621-634 `property!`. -/
def setProp (t : Targets) (j : Nat) (v : List Nat) (p : VP) (r : Run) : Run :=
  let r := maybeFlush t j v p r
  let x := match r.1.f j with
    | some (_, ps) => (v, ps.union p)
    | none => (v, p)
  ({ r.1 with f := fun k => if k = j then some x else r.1.f k }, r.2)

/-- src/properties/masking.rs:661-753 `handle_property`. -/
def handle (t : Targets) (r : Run) : Decl → Run
  | .long j v p => setProp t j v p r
  | .comp v => ({ r.1 with comp := some v }, r.2)
  | .mode v => ({ r.1 with mode := some v }, r.2)
  | .mask ls p =>
    let r := (List.range 6).foldl (fun r j => maybeFlush t j (ls.map (· j)) p r) r
    let r : Run := ({ r.1 with comp := some (ls.map (· 6)), mode := some (ls.map (· 7)) }, r.2)
    (List.range 6).foldl (fun r j => setProp t j (ls.map (· j)) p r) r
  | .border b => ({ r.1 with border := some b }, r.2)
  | .rawLong j v p => let r := doFlush t r; (r.1, r.2 ++ [.rawLong j v (t.pre 7 p)])
  | .rawMask v p => let r := doFlush t r; (r.1, r.2 ++ [.rawMask v (t.pre 7 p)])
  -- not handled: written as they are, at once
  | d => (r.1, r.2 ++ [d])

/-- A block through the handler: src/declaration.rs `DeclarationBlock::minify`, for mask properties only. -/
def run (t : Targets) (ds : List Decl) : List Decl :=
  (doFlush t (ds.foldl (handle t) (St.empty, []))).2

end Verif.Mask
