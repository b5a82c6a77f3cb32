import Verif.Model.Base
/-
Reading a page of HTML: its tags, and whether they are balanced. Independent of how the templates
make the page. A tag is what stands between `<` and the first `>` that is not in double quotes;
single quotes, comments and the void elements of HTML are not dealt with (the templates of the
changes have none of them, except for one comment that the model leaves out).
-/
namespace Javatools

/-- The tags of a page. The state is the tag being read (backwards), with whether we are in
quotes; a tag that is not finished does not count. -/
def tagsFrom : Option (Str × Bool) → Str → List Str
  | _, [] => []
  | none, c :: s => if c = '<' then tagsFrom (some ([], false)) s else tagsFrom none s
  | some (t, q), c :: s =>
    if c = '>' ∧ q = false then t.reverse :: tagsFrom none s
    else tagsFrom (some (c :: t, if c = '"' then !q else q)) s

/-- The tags of a page. -/
def tagsOf (page : Str) : List Str := tagsFrom none page

/-- A start tag or an end tag, with the name of the element. -/
inductive TagKind where
  | start (name : Str)
  | stop (name : Str)
  deriving DecidableEq, Repr

/-- The name is what comes before the first white space. -/
def tagName (s : Str) : Str := s.takeWhile fun c => c ≠ ' ' && c ≠ '\n'

/-- What a tag is. -/
def tagKind : Str → TagKind
  | '/' :: s => .stop (tagName s)
  | s => .start (tagName s)

/-- Opening and closing elements; the list is of those open, the last one first. -/
def closeTags : List TagKind → List Str → Option (List Str)
  | [], st => some st
  | .start n :: ts, st => closeTags ts (n :: st)
  | .stop _ :: _, [] => none
  | .stop n :: ts, m :: st => if n = m then closeTags ts st else none

/-- Every element of the page is closed, in the order in which they nest. -/
def WellFormed (page : Str) : Prop := closeTags ((tagsOf page).map tagKind) [] = some []

instance (page : Str) : Decidable (WellFormed page) := by unfold WellFormed; infer_instance

end Javatools
