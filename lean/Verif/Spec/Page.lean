import Verif.Spec.Markup
/-
Reading a page as XML: declarations (`<?...?>`, `<!...>`, also comments), empty elements (`<.../>`),
start and end tags, and the attributes of a tag. Entities and the text between tags are not looked
at.
-/
namespace Javatools

/-- What a tag is in XML. -/
inductive XmlTag where
  | decl
  | empty (name : Str)
  | start (name : Str)
  | stop (name : Str)
  deriving DecidableEq, Repr

/-- What a tag is in XML. -/
def xmlTag (s : Str) : XmlTag :=
  if s.head? = some '?' ∨ s.head? = some '!' then .decl
  else if s.head? = some '/' then .stop (tagName s.tail)
  else if s.getLast? = some '/' then .empty (tagName s)
  else .start (tagName s)

/-- Opening and closing elements; the list is of those open, the last one first. -/
def closeXml : List XmlTag → List Str → Option (List Str)
  | [], st => some st
  | .decl :: ts, st => closeXml ts st
  | .empty _ :: ts, st => closeXml ts st
  | .start n :: ts, st => closeXml ts (n :: st)
  | .stop _ :: _, [] => none
  | .stop n :: ts, m :: st => if n = m then closeXml ts st else none

/-- The names of attributes: what comes before `=`, outside quotes. The state is the name being read
(backwards), and whether we are in quotes. -/
def attrsFrom : Str → Bool → Str → List Str
  | _, _, [] => []
  | acc, true, c :: s => if c = '"' then attrsFrom [] false s else attrsFrom acc true s
  | acc, false, c :: s =>
    if c = '"' then attrsFrom [] true s
    else if c = '=' then acc.reverse :: attrsFrom [] false s
    else if c = ' ' ∨ c = '\n' then attrsFrom [] false s
    else attrsFrom (c :: acc) false s

/-- The attributes of a tag are different ones. -/
def AttrsOk (tag : Str) : Prop := xmlTag tag = .decl ∨ (attrsFrom [] false tag).Nodup

instance (tag : Str) : Decidable (AttrsOk tag) := by unfold AttrsOk; infer_instance

/-- The page is well-formed: every element is closed, in the order in which they nest, and no tag
has an attribute twice. -/
def XmlOk (page : Str) : Prop :=
  closeXml ((tagsOf page).map xmlTag) [] = some [] ∧ ∀ t ∈ tagsOf page, AttrsOk t

instance (page : Str) : Decidable (XmlOk page) := by unfold XmlOk; infer_instance

/-- The text in front of the first tag, and the tags each with the text behind it. -/
def piecesFrom : Option (Str × Bool) → Str → Str × List (Str × Str)
  | _, [] => ([], [])
  | none, c :: s =>
    if c = '<' then ([], (piecesFrom (some ([], false)) s).2)
    else (c :: (piecesFrom none s).1, (piecesFrom none s).2)
  | some (t, q), c :: s =>
    if c = '>' ∧ q = false then ([], (t.reverse, (piecesFrom none s).1) :: (piecesFrom none s).2)
    else piecesFrom (some (c :: t, if c = '"' then !q else q)) s

/-- A heading takes what has been found behind it; the text directly in the block of a change is the
name of an entry. -/
def pieceStep (p : Str × Str) (st : List Str × List (Str × List Str)) :
    List Str × List (Str × List Str) :=
  if p.1 = "h2".toList then ([], (p.2, st.1) :: st.2)
  else if "div class=\"Change ".toList.isPrefixOf p.1 = true ∧ p.2 ≠ [] then (p.2 :: st.1, st.2)
  else st

/-- The headings of a page, with the entries that are shown under each. -/
def shownOn (page : Str) : List (Str × List Str) :=
  ((piecesFrom none page).2.foldr pieceStep ([], [])).2

example : shownOn "<h2>A</h2><div class=\"Change X\">x<b></b></div><h2>B</h2>".toList =
    [("A".toList, ["x".toList]), ("B".toList, [])] := by decide +kernel

example : xmlTag "br /".toList = .empty "br".toList ∧ xmlTag "/p".toList = .stop "p".toList ∧
    xmlTag "?xml version=\"1.0\"?".toList = .decl ∧ xmlTag "a href=\"x/y\"".toList = .start "a".toList ∧
    attrsFrom [] false "a href=\"x=y\" id=\"z\"".toList = ["href".toList, "id".toList] := by decide +kernel

example : XmlOk "<?xml?><a x=\"1\"><b/>t</a>".toList ∧ ¬ XmlOk "<a x=\"1\" x=\"2\"></a>".toList ∧
    ¬ XmlOk "<a><b></a></b>".toList := by decide +kernel

end Javatools
