import Verif.Lemmas.Uri2
set_option autoImplicit false
/-!
# C13, C14: URIs
-/
namespace Verif.Props.Uri
open Verif.Uri Verif.Spec.Uri

/-- C13: a reference with a scheme and a host replaces the base entirely. -/
theorem C13_authority (base : Uri) (scheme rest : List Char) (h1 : ':' ∉ scheme)
    (h2 : 2 ≤ scheme.length) (u : Uri)
    (hu : parse (scheme ++ "://".toList ++ rest) = .ok u) (hh : u.host ≠ []) :
    resolve base (scheme ++ "://".toList ++ rest) = .ok u ∧ u.scheme = scheme := by
  have hne : scheme ++ "://".toList ++ rest ≠ [] := by simp
  have hs : u.scheme = scheme := by
    have hstr : scheme ++ "://".toList ++ rest = scheme ++ ':' :: '/' :: '/' :: rest := by
      simp
    rw [hstr] at hu
    unfold parse at hu
    rw [parse_scheme _ _ h1 (by omega)] at hu
    simp only [parseRest, Out.bind] at hu
    cases hu; rfl
  have habs : u.isAbsolute = true := by
    have := (parse_shape _ u hu).abs
    rw [this]
    have hse : u.scheme ≠ [] := by rw [hs]; intro h; simp [h] at h2
    simp [absolute, hse, hh]
  refine ⟨?_, hs⟩
  unfold resolve
  rw [if_neg hne, hu]
  simp [Out.bind, absolutise, habs]

/-- C13: a reference of another scheme replaces the base entirely, whatever follows the colon. -/
theorem C13_other_scheme (base : Uri) (r : List Char) (hr : r ≠ []) (u : Uri)
    (hu : parse r = .ok u) (h1 : u.scheme ≠ []) (h2 : u.scheme ≠ base.scheme)
    (h3 : base.scheme ≠ []) : resolve base r = .ok u := by
  unfold resolve
  rw [if_neg hr, hu]
  simp only [Out.bind, absolutise]
  rw [if_pos]
  simp [compatibleSchemes, h1, h3, Ne.symm h2]

/-- C13: the empty reference is the base. -/
theorem C13_empty (base : Uri) : resolve base [] = .ok base := by simp [resolve]

/-- C13: whenever a reference without a colon resolves, the result has the scheme, host and port of
the base. -/
theorem C13_keeps (base : Uri) (r : List Char) (hr : ':' ∉ r) (u : Uri)
    (hu : resolve base r = .ok u) :
    u.scheme = base.scheme ∧ u.host = base.host ∧ u.port = base.port ∧
    u.isAbsolute = base.isAbsolute := by
  unfold resolve at hu
  split at hu
  · cases hu; simp
  · rw [parse_nocolon r hr] at hu
    simp only [Out.bind, absolutise, Bool.false_or] at hu
    rw [if_neg (by simp [compatibleSchemes])] at hu
    split at hu
    · cases hu; simp
    · cases hc : combinePath base.path (fixSlashes r) with
      | ok p => rw [hc] at hu; cases hu; simp
      | throws => rw [hc] at hu; contradiction
      | ub => rw [hc] at hu; contradiction
      | diverges => rw [hc] at hu; contradiction

/-- C13: a reference beginning with a slash replaces the path. -/
theorem C13_rooted (base : Uri) (r : List Char) (hr : ':' ∉ r) (hb : '\\' ∉ r) :
    resolve base ('/' :: r) = .ok { base with path := '/' :: r } := by
  unfold resolve
  have h1 : ':' ∉ '/' :: r := by simp [hr]
  have h2 : '\\' ∉ '/' :: r := by simp [hb]
  rw [if_neg (by simp), parse_nocolon _ h1, fix_id _ h2]
  simp [Out.bind, absolutise, compatibleSchemes]

/-- What resolving computes for every reference `r₁/.../rₙ` without a scheme against every base with
a rooted path: `..` segments are followed first, `.` counting as a directory, and then the `.`
segments are dropped, except that the last segment is always kept. -/
theorem C13_exact (base : Uri) (sb : List (List Char)) (bf : List Char) (rd : List (List Char))
    (rf : List Char) (hsb : ∀ s ∈ sb, Segment s) (hbf : Segment bf) (hrd : ∀ s ∈ rd, Segment s)
    (hrf : Segment rf) (hp : base.path = render (sb ++ [bf]))
    (h0 : renderRel (rd ++ [rf]) ≠ []) (h1 : (renderRel (rd ++ [rf]))[0]? ≠ some '/')
    (h2 : ':' ∉ renderRel (rd ++ [rf])) (h3 : '\\' ∉ renderRel (rd ++ [rf])) :
    resolve base (renderRel (rd ++ [rf])) =
      .ok { base with path := render ((codeWalk sb rd).filter (· ≠ dot) ++ [rf]) } := by
  unfold resolve
  rw [if_neg h0, parse_nocolon _ h2, fix_id _ h3]
  simp only [Out.bind, absolutise, Bool.false_or]
  rw [if_neg (by simp [compatibleSchemes]), if_neg h1, hp, combinePath_exact sb bf rd rf hsb hbf hrd hrf]

/-- C13 (partial): a relative reference resolves to the path it leads to from the directory of the
base, if the base path is rooted and has no `.` segment in it, no `.` segment of the reference comes
before a `..` segment, and the reference does not end in a `.` or `..` segment.  Missing: the cases
excluded, where it is false (`C13_violated_*`). -/
theorem C13_partial (base : Uri) (sb : List (List Char)) (bf : List Char) (r1 r2 : List (List Char))
    (rf : List Char) (hsb : ∀ s ∈ sb, Segment s) (hbf : Segment bf)
    (hrd : ∀ s ∈ r1 ++ r2, Segment s)
    (hrf : Segment rf) (hp : base.path = render (sb ++ [bf]))
    (h0 : renderRel (r1 ++ r2 ++ [rf]) ≠ []) (h1 : (renderRel (r1 ++ r2 ++ [rf]))[0]? ≠ some '/')
    (h2 : ':' ∉ renderRel (r1 ++ r2 ++ [rf])) (h3 : '\\' ∉ renderRel (r1 ++ r2 ++ [rf]))
    (d1 : dot ∉ sb) (d2 : dot ∉ r1) (d3 : dotdot ∉ r2) (d4 : rf ≠ dot) (d5 : rf ≠ dotdot) :
    resolve base (renderRel (r1 ++ r2 ++ [rf])) =
      .ok { base with path := render (target sb (r1 ++ r2) rf) } := by
  rw [C13_exact base sb bf (r1 ++ r2) rf hsb hbf hrd hrf hp h0 h1 h2 h3,
    filter_walk sb r1 r2 d1 d2 d3]
  simp [target, d4, d5]

/-- Every rooted path and every reference has the form the theorems above speak about. -/
theorem C13_forms (p r : List Char) (h : p[0]? = some '/') :
    (∃ sb bf, p = render (sb ++ [bf]) ∧ (∀ s ∈ sb, Segment s) ∧ Segment bf) ∧
    (∃ rd rf, r = renderRel (rd ++ [rf]) ∧ (∀ s ∈ rd, Segment s) ∧ Segment rf) :=
  ⟨exists_abs p h, exists_rel r⟩

/-- The hypotheses of `C13_partial` are met by `../../c/./d` against `http://h/a/b/x`. -/
example : resolve ⟨"http".toList, "h".toList, [], "/a/b/x".toList, true⟩ "../../c/./d".toList =
    .ok ⟨"http".toList, "h".toList, [], "/c/d".toList, true⟩ := by decide +kernel

example : target ["a".toList, "b".toList] ["..".toList, "..".toList, "c".toList, ".".toList] "d".toList =
    ["c".toList, "d".toList] := by decide +kernel

/-- C13 is false of the code when a `.` segment comes before `..`: `./../b` against `/a/x` gives
`/a/b`, not `/b`. -/
theorem C13_violated_dot :
    resolve ⟨"http".toList, "h".toList, [], "/a/x".toList, true⟩ "./../b".toList =
      .ok ⟨"http".toList, "h".toList, [], "/a/b".toList, true⟩ ∧
    render (target ["a".toList] [".".toList, "..".toList] "b".toList) = "/b".toList := by
  decide +kernel

/-- C13 is false of the code for a reference that ends in `..` or `.`: the segment stays. -/
theorem C13_violated_last :
    resolve ⟨"http".toList, "h".toList, [], "/a/b/x".toList, true⟩ "..".toList =
      .ok ⟨"http".toList, "h".toList, [], "/a/b/..".toList, true⟩ ∧
    render (target ["a".toList, "b".toList] [] "..".toList) = "/a/".toList := by
  decide +kernel

/-- C13 is false of the code for a reference with a host but no scheme: the host becomes part of the
path, or with a port part of the scheme. -/
theorem C13_violated_network :
    resolve ⟨"http".toList, "h".toList, [], "/a".toList, true⟩ "//k/b".toList =
      .ok ⟨"http".toList, "h".toList, [], "//k/b".toList, true⟩ ∧
    resolve ⟨"http".toList, "h".toList, [], "/a".toList, true⟩ "//k:80/b".toList =
      .ok ⟨"//k".toList, [], [], "80/b".toList, false⟩ := by
  decide +kernel

/-- C13, undefined behaviour: resolving any reference that is not rooted and has no scheme against a
base with an empty path, such as `http://h`, reads before the start of an empty string. -/
theorem C13_ub (base : Uri) (r : List Char) (h0 : base.path = []) (h1 : ':' ∉ r) (h2 : r ≠ [])
    (h3 : '\\' ∉ r) (h4 : r[0]? ≠ some '/') : resolve base r = .ub := by
  unfold resolve
  rw [if_neg h2, parse_nocolon _ h1, fix_id _ h3]
  simp [Out.bind, absolutise, compatibleSchemes, h4, h0, combinePath]

example : (parse "http://h".toList).bind (fun b => resolve b "x.xml".toList) = .ub := by decide +kernel

/-- C13: against a base that is a bare relative path, going above its first segment throws
`std::out_of_range`. -/
theorem C13_violated_throws :
    (parse "a/b".toList).bind (fun b => resolve b "../c".toList) = .throws := by decide +kernel

/-- C13: for a rooted base path resolution never throws, never loops and never reads outside. -/
theorem C13_total (base : Uri) (r : List Char) (h : base.path[0]? = some '/') (hr : ':' ∉ r) :
    ∃ u, resolve base r = .ok u := by
  unfold resolve
  split
  · exact ⟨_, rfl⟩
  · rw [parse_nocolon _ hr]
    simp only [Out.bind, absolutise, Bool.false_or]
    rw [if_neg (by simp [compatibleSchemes])]
    split
    · exact ⟨_, rfl⟩
    · obtain ⟨sb, bf, e1, e2, e3⟩ := exists_abs _ h
      obtain ⟨rd, rf, f1, f2, f3⟩ := exists_rel (fixSlashes r)
      rw [e1, f1, combinePath_exact sb bf rd rf e2 e3 f2 f3]
      exact ⟨_, rfl⟩

/-- C14 (partial): printing a parsed URI and parsing the result gives the same URI, if it is
printable.  Missing: the other URIs, for which it is false (`C14_violated`). -/
theorem C14_partial (s : List Char) (u : Uri) (h : parse s = .ok u)
    (hp : Printable u.scheme u.host u.port u.path) : parse u.asString = .ok u :=
  print_parse u (parse_shape s u h) hp

/-- C14: every URI with a scheme of two letters or more and a host survives. -/
theorem C14_host (s : List Char) (u : Uri) (h : parse s = .ok u) (h1 : 2 ≤ u.scheme.length)
    (h2 : u.host ≠ []) : parse u.asString = .ok u :=
  C14_partial s u h (Or.inr (Or.inl ⟨h1, h2⟩))

/-- C14: every reference without a colon survives. -/
theorem C14_relative (s : List Char) (h : ':' ∉ s) :
    ∃ u, parse s = .ok u ∧ parse u.asString = .ok u ∧ u.path = fixSlashes s := by
  refine ⟨_, parse_nocolon s h, ?_, rfl⟩
  exact C14_partial s _ (parse_nocolon s h)
    (Or.inl ⟨rfl, rfl, rfl, fun hc => h ((fix_colon s).mp hc), fix_no s⟩)

example : ∃ u, parse "http://h:8080/a?b#c".toList = .ok u ∧ u.host = "h".toList ∧
    u.port = "8080".toList ∧ parse u.asString = .ok u :=
  ⟨⟨"http".toList, "h".toList, "8080".toList, "/a?b#c".toList, true⟩, by decide +kernel⟩

/-- C14 is false of the code: Windows paths, a port without a host, and a path of two slashes come
back as something else; a bare scheme cannot be parsed again at all. -/
theorem C14_violated :
    (∃ u v, parse "c:\\d".toList = .ok u ∧ parse u.asString = .ok v ∧ u.path = "c:/d".toList ∧
      v.host = "c".toList ∧ v.path = "/d".toList) ∧
    (∃ u v, parse "http://:80/d".toList = .ok u ∧ parse u.asString = .ok v ∧
      u.port = "80".toList ∧ v.port = []) ∧
    (∃ u v, parse "http:////d".toList = .ok u ∧ parse u.asString = .ok v ∧ u.host = [] ∧
      v.host = "d".toList) ∧
    (∃ u, parse "http://".toList = .ok u ∧ parse u.asString = .ub) :=
  ⟨⟨⟨"file".toList, [], [], "c:/d".toList, true⟩, ⟨"file".toList, "c".toList, [], "/d".toList, true⟩,
      by decide +kernel⟩,
   ⟨⟨"http".toList, [], "80".toList, "/d".toList, false⟩, ⟨"http".toList, [], [], "/d".toList, false⟩,
      by decide +kernel⟩,
   ⟨⟨"http".toList, [], [], "//d".toList, false⟩, ⟨"http".toList, "d".toList, [], [], true⟩,
      by decide +kernel⟩,
   ⟨⟨"http".toList, [], [], [], false⟩, by decide +kernel⟩⟩

end Verif.Props.Uri
