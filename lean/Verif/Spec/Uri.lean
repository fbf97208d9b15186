set_option autoImplicit false
/-!
# Paths as segments
-/
namespace Verif.Spec.Uri

/-- A segment of a path: no slash in it. -/
def Segment (s : List Char) : Prop := '/' ∉ s

/-- The path `/s₁/s₂/.../sₙ`. -/
def render : List (List Char) → List Char
  | [] => []
  | s :: t => '/' :: s ++ render t

/-- A relative reference `r₁/r₂/.../rₙ`. -/
def renderRel : List (List Char) → List Char
  | [] => []
  | [s] => s
  | s :: t => s ++ '/' :: renderRel t

def dot : List Char := ['.']
def dotdot : List Char := ['.', '.']

/-- Follow a list of segments from a directory: `..` goes up (and stays at the root), `.` stays,
anything else goes down.  The directory is a list of segments, outermost first. -/
def walk (dir : List (List Char)) : List (List Char) → List (List Char)
  | [] => dir
  | s :: t => walk (if s = dotdot then dir.dropLast else if s = dot then dir else dir ++ [s]) t

/-- Where a reference with directory part `rd` and file name `rf`, taken relative to the directory
`dir`, leads: follow the directory part, then the name.  A final `.` or `..` leads to a directory
(an empty file name). -/
def target (dir rd : List (List Char)) (rf : List Char) : List (List Char) :=
  if rf = dot then walk dir rd ++ [[]]
  else if rf = dotdot then (walk dir rd).dropLast ++ [[]]
  else walk dir rd ++ [rf]

/-- The URIs whose printed form can be read back: a plain path with no colon in it; or a scheme of
at least two letters with a host; or such a scheme without host and port, whose path is not mistaken
for an authority (`//x`), a drive letter (`file:c:x`) or nothing at all. -/
def Printable (scheme host port path : List Char) : Prop :=
  (scheme = [] ∧ host = [] ∧ port = [] ∧ ':' ∉ path ∧ '\\' ∉ path) ∨
  (2 ≤ scheme.length ∧ host ≠ []) ∨
  (2 ≤ scheme.length ∧ host = [] ∧ port = [] ∧
    ((scheme = "file".toList ∧ ∃ t, path = '/' :: t) ∨
     (path ≠ [] ∧ path ≠ ['/'] ∧ (¬ ∃ t, path = '/' :: '/' :: t) ∧
       ¬ (scheme = "file".toList ∧ path[1]? = some ':'))))

end Verif.Spec.Uri
