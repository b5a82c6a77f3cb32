import Verif.Model.Base
/-
Lines of texts, independently of the model: what C64 is about.
-/
namespace Javatools.Spec

/-- `ls` are the lines of the text: they are separated by LF, CR LF or CR. A text that ends with a
separator has an empty last line. -/
inductive IsLines : Str → List Str → Prop
  | last (x : Str) (h : ∀ c ∈ x, c ≠ '\n' ∧ c ≠ '\r') : IsLines x [x]
  | lf (x : Str) (h : ∀ c ∈ x, c ≠ '\n' ∧ c ≠ '\r') {s : Str} {ls : List Str} (hs : IsLines s ls) :
      IsLines (x ++ '\n' :: s) (x :: ls)
  | crlf (x : Str) (h : ∀ c ∈ x, c ≠ '\n' ∧ c ≠ '\r') {s : Str} {ls : List Str} (hs : IsLines s ls) :
      IsLines (x ++ '\r' :: '\n' :: s) (x :: ls)
  | cr (x : Str) (h : ∀ c ∈ x, c ≠ '\n' ∧ c ≠ '\r') {s : Str} {ls : List Str} (hs : IsLines s ls)
      (hn : s.head? ≠ some '\n') : IsLines (x ++ '\r' :: s) (x :: ls)

/-- White space (Unicode, as Python has it). -/
def Space (c : Char) : Prop :=
  c.toNat ∈ [0x09, 0x0a, 0x0b, 0x0c, 0x0d, 0x1c, 0x1d, 0x1e, 0x1f, 0x20, 0x85, 0xa0, 0x1680, 0x2000,
    0x2001, 0x2002, 0x2003, 0x2004, 0x2005, 0x2006, 0x2007, 0x2008, 0x2009, 0x200a, 0x2028, 0x2029,
    0x202f, 0x205f, 0x3000]

/-- Two lines that are equal except for white space at their ends. -/
def EqualLines (x y : Str) : Prop :=
  ∃ c p q, x = c ++ p ∧ y = c ++ q ∧ (∀ a ∈ p, Space a) ∧ ∀ a ∈ q, Space a

/-- Line by line equal up to trailing white space; lines that one text lacks count as empty. -/
def EqualText (ls ms : List Str) : Prop := ∀ i : Nat, EqualLines (ls.getD i []) (ms.getD i [])

end Javatools.Spec
