/-!
# Code conversion facets: shared vocabulary

A facet call (`std::codecvt::in` / `out`) receives a conversion state, the unread input
and an output buffer of some capacity.  It writes some characters, advances over some of
the input, updates the state and reports `ok` or `incomplete` (C++ `partial`).
-/
namespace Verif.Codecvt

/-- `std::codecvt_base::result`; the facets of the library return these two values from
`do_in`/`do_out` (src/convert/*.cpp). -/
inductive Status where
  | ok
  | incomplete
  deriving DecidableEq, Repr

/-- What one facet call leaves behind: result, new conversion state, input not yet consumed
(`from_next .. from_end`) and the characters written (`to .. to_next`). -/
structure CallRes (σ α β : Type) where
  status : Status
  st : σ
  rest : List α
  out : List β
  deriving DecidableEq, Repr

/-- The resumption loop of `basic_oconvertstream::str` and `basic_iconvertstream::str`
(include/io/convertstream.hpp lines 141-153 and 233-246): call the facet, append what it
wrote, and call again on the rest while it answers `incomplete`.  The C++ loop uses a buffer of
4096 every time; the model takes one capacity per call, so every sequence of buffers is covered.
When the list of capacities runs out the answer is `incomplete`. -/
def drive {σ α β : Type} (call : σ → List α → Nat → CallRes σ α β) :
    σ → List α → List Nat → CallRes σ α β
  | st, inp, [] => ⟨.incomplete, st, inp, []⟩
  | st, inp, c :: cs =>
    let r := call st inp c
    match r.status with
    | .ok => r
    | .incomplete =>
      let r' := drive call r.st r.rest cs
      { r' with out := r.out ++ r'.out }

end Verif.Codecvt
