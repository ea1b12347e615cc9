import Verif.Tokens.SourceProps
/-! Values the theorems apply to, and values that are printed as something else. -/
namespace Verif.Tokens

/-- The text of 1. -/
def one : Num := ⟨false, cs!"1", [], none, false⟩

/-- The text of 2. -/
def two : Num := ⟨false, cs!"2", [], none, false⟩

/-- The text of 0.5. -/
def half : Num := ⟨false, cs!"0", cs!"5", none, true⟩

/-- The text of -0.5. -/
def minusHalf : Num := ⟨true, cs!"0", cs!"5", none, true⟩

theorem one_ok : one.Ok := ⟨⟨by unfold Digits; decide, by decide⟩, by unfold Digits; decide, by simp [one], by decide, by decide⟩

theorem two_ok : two.Ok := ⟨⟨by unfold Digits; decide, by decide⟩, by unfold Digits; decide, by simp [two], by decide, by decide⟩

theorem half_ok : half.Ok := ⟨⟨by unfold Digits; decide, by decide⟩, by unfold Digits; decide, by simp [half], by decide, by decide⟩

theorem minusHalf_ok : minusHalf.Ok := ⟨⟨by unfold Digits; decide, by decide⟩, by unfold Digits; decide, by simp [minusHalf], by decide, by decide⟩

/-- `-.5px/* */url("a") 1e-1`, with whitespace, a unit that needs an escape, a string with a quotation mark. -/
def sample : List Token := [.dimension minusHalf cs!"px", .comment cs!" ", .func cs!"url", .string cs!"a\"", .closeParen, .ws cs!"\n ", .dimension half cs!"e-x", .delim '*',
  .ident cs!"1 a"]

/-- The hypotheses of `C69_roundtrip_partial` are met. -/
example : (∀ t ∈ sample, Ok t) ∧ Apart (shown false sample) ∧ ValueEnd cs!";" := by
  refine ⟨?_, ?_, .inr ⟨';', [], rfl, .inl rfl⟩⟩
  · have h1 := minusHalf_ok
    have h2 := half_ok
    simp only [sample, List.mem_cons, List.not_mem_nil, or_false, forall_eq_or_imp, forall_eq, Ok]
    exact ⟨⟨h1, by decide, by unfold NoNul; decide, by decide⟩, by decide, ⟨by unfold NoNul; decide, by decide⟩, by unfold NoNul; decide, trivial, ⟨by decide, by decide⟩,
      ⟨h2, by decide, by unfold NoNul; decide, by decide⟩, by decide, ⟨by unfold NoNul; decide, by decide⟩⟩
  · simp [shown, sample, Apart, needsQuote, kind, runsTogether, Kind.isNameLike, Kind.isNumeric, isUrlName, lower]

/-- The hypotheses of `C68_roundtrip` are met by `a"b"1,50%`. -/
example : (∀ n u, Token.dimension n u ∉ [Token.ident cs!"a", .string cs!"b", .number one, .comma, .percentage true false half]) ∧
    Apart (shown true [.ident cs!"a", .string cs!"b", .number one, .comma, .percentage true false half]) := by
  refine ⟨by simp, ?_⟩
  simp [shown, Apart, needsQuote, kind, runsTogether, Kind.isNameLike, Kind.isNumeric]

example : printTokens false sample = cs!"-.5px/* */url(\"a\\\"\")\n .5\\65 -x*\\31 \\ a" := by decide +kernel

/-- What a text is read as when its numbers are these. -/
def dtoaSample (v : ℚ) : Num := if v = 1 then one else if v = 2 then two else if v < 0 then minusHalf else half

/-- The hypotheses of `C70_source_partial` are met by `a 1 + 2px,-0.5 "\"" /**/ b`. -/
example : ∃ ts, List.Forall₂ (Stored dtoaSample) (lex cs!"a 1 + 2px,-0.5 \"\\\"\" /**/ b") ts ∧ Plain ts ∧ (∀ t ∈ ts, Writable t) ∧ NoNul cs!"a 1 + 2px,-0.5 \"\\\"\" /**/ b" := by
  have e : lex cs!"a 1 + 2px,-0.5 \"\\\"\" /**/ b" = [.ident cs!"a", .ws cs!" ", .number 1, .ws cs!" ", .delim '+', .ws cs!" ", .dimension 2 cs!"px", .comma, .number (-1/2),
    .ws cs!" ", .string cs!"\"", .ws cs!" ", .comment [], .ws cs!" ", .ident cs!"b"] := by decide +kernel
  rw [e]
  refine ⟨[.ident cs!"a", .ws cs!" ", .number one, .ws cs!" ", .delim '+', .ws cs!" ", .dimension two cs!"px", .comma, .number minusHalf,
    .ws cs!" ", .string cs!"\"", .ws cs!" ", .comment [], .ws cs!" ", .ident cs!"b"], ?_, ?_, ?_, by unfold NoNul; decide⟩
  · have h1 : Stored dtoaSample (.number 1) (.number one) := .number 1
    have h2 : Stored dtoaSample (.dimension 2 cs!"px") (.dimension two cs!"px") := .dimension 2 cs!"px"
    have h3 : Stored dtoaSample (.number (-1/2)) (.number minusHalf) := by
      have := Stored.number (dtoa := dtoaSample) (-1/2)
      have e : dtoaSample (-1/2) = minusHalf := by decide +kernel
      rwa [e] at this
    exact .cons (.ident _) (.cons (.ws _) (.cons h1 (.cons (.ws _) (.cons (.delim _) (.cons (.ws _) (.cons h2 (.cons .comma (.cons h3 (.cons (.ws _) (.cons (.string _)
      (.cons (.ws _) (.cons (.comment _) (.cons (.ws _) (.cons (.ident _) .nil))))))))))))))
  · simp only [Plain]
    decide
  · simp only [List.mem_cons, List.not_mem_nil, or_false, forall_eq_or_imp, forall_eq, Writable]
    exact ⟨trivial, trivial, one_ok, trivial, by decide, trivial, ⟨two_ok, by decide, by decide⟩, trivial, minusHalf_ok, trivial, trivial, trivial, trivial, trivial, trivial⟩

/-! ### Values that change -/

/-- `--version: 1.0.5` is printed as `1.5`: two numbers have become one. -/
theorem C70_version : lex cs!"1.0.5" = [.number 1, .number (1/2)] ∧ printTokens true [.number one, .number half] = cs!"1.5" ∧ lex cs!"1.5" = [.number (3/2)] := by
  decide +kernel

/-- `2n+1` is printed as `2n1`: a dimension and a number have become a dimension. -/
theorem C70_sign : lex cs!"2n+1" = [.dimension 2 cs!"n", .number 1] ∧ printTokens true [.dimension two cs!"n", .number one] = cs!"2n1" ∧ lex cs!"2n1" = [.dimension 2 cs!"n1"] := by
  decide +kernel

/-- `1+2` is printed as `12`. -/
theorem C70_sum : lex cs!"1+2" = [.number 1, .number 2] ∧ printTokens true [.number one, .number two] = cs!"12" ∧ lex cs!"12" = [.number 12] := by
  decide +kernel

/-- `a/**/b` is minified to `ab`. -/
theorem C70_comment : lex cs!"a/**/b" = [.ident cs!"a", .comment [], .ident cs!"b"] ∧ printTokens true [.ident cs!"a", .comment [], .ident cs!"b"] = cs!"ab" ∧
    lex cs!"ab" = [.ident cs!"ab"] := by
  decide +kernel

/-- `//**/*` is minified to the beginning of a comment. -/
theorem C70_comment_open : lex cs!"//**/* b" = [.delim '/', .comment [], .delim '*', .ws [' '], .ident cs!"b"] ∧
    printTokens true [.delim '/', .comment [], .delim '*', .ws [' '], .ident cs!"b"] = cs!"/* b" ∧ lex cs!"/* b" = [.comment cs!" b"] := by
  decide +kernel

/-- A small negative dimension that `dtoa_short` writes without `0.` gets two dashes: -0.0000005px is printed as `--5e-7px`, which is an identifier. -/
theorem C69_dashes : lex cs!"-0.0000005px" = [.dimension (-5/10000000) cs!"px"] ∧
    printTokens true [.dimension ⟨true, cs!"5", [], some (true, cs!"7"), true⟩ cs!"px"] = cs!"--5e-7px" ∧ lex cs!"--5e-7px" = [.ident cs!"--5e-7px"] := by
  decide +kernel

/-- So does -0.9999999px, which is rounded to -1 when it is written. -/
theorem C69_dashes_one : printTokens true [.dimension ⟨true, cs!"1", [], none, true⟩ cs!"px"] = cs!"--1px" ∧ lex cs!"--1px" = [.ident cs!"--1px"] := by
  decide +kernel

/-- A unit `e1` is printed so that it is an exponent. -/
theorem C69_exponent : lex cs!"1\\65 1" = [.dimension 1 cs!"e1"] ∧ printTokens true [.dimension one cs!"e1"] = cs!"1e1" ∧ lex cs!"1e1" = [.number 10] := by
  decide +kernel

/-- The unit `E` changes its case. -/
theorem C69_unit_case : lex cs!"1E" = [.dimension 1 cs!"E"] ∧ lex (printTokens true [.dimension one cs!"E"]) = [.dimension 1 cs!"e"] := by
  decide +kernel

/-- `\-->` is printed as `-->`. -/
theorem C70_rare : lex cs!"\\-->" = [.ident cs!"--", .delim '>'] ∧ printTokens true [.ident cs!"--", .delim '>'] = cs!"-->" ∧ lex cs!"-->" = [.cdc] := by
  decide +kernel

/-- A backslash before a newline becomes an escape when minified. -/
theorem C69_backslash : lex cs!"\\\nb" = [.delim '\\', .ws ['\n'], .ident cs!"b"] ∧ printTokens true [.delim '\\', .ws ['\n'], .ident cs!"b"] = cs!"\\ b" ∧
    lex cs!"\\ b" = [.ident cs!" b"] := by
  decide +kernel
end Verif.Tokens
