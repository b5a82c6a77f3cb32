import Verif.Model.Base
/-
Specification of Java types: descriptors (JVMS 4.3) and source names (JLS). Independent of the
model.
-/
namespace Javatools.Spec

inductive Prim where
  | byte | char | double | float | int | long | short | boolean
  deriving DecidableEq, Repr

/-- A field type: primitive, class (internal name), or array. -/
inductive JType where
  | prim (p : Prim)
  | cls (name : Str)
  | arr (t : JType)
  deriving DecidableEq, Repr

def Prim.desc : Prim → Char
  | .byte => 'B' | .char => 'C' | .double => 'D' | .float => 'F'
  | .int => 'I' | .long => 'J' | .short => 'S' | .boolean => 'Z'

def Prim.keyword : Prim → Str
  | .byte => "byte".toList | .char => "char".toList | .double => "double".toList
  | .float => "float".toList | .int => "int".toList | .long => "long".toList
  | .short => "short".toList | .boolean => "boolean".toList

/-- FieldDescriptor (JVMS 4.3.2) -/
def JType.desc : JType → Str
  | .prim p => [p.desc]
  | .cls n => 'L' :: (n ++ [';'])
  | .arr t => '[' :: t.desc

/-- Java source name of the type; the class name keeps its internal spelling with '/'
replaced by '.'. -/
def JType.java : JType → Str
  | .prim p => p.keyword
  | .cls n => n.map (fun c => if c = '/' then '.' else c)
  | .arr t => t.java ++ "[]".toList

/-- The class names occurring in the type satisfy `P`. -/
def JType.Names (P : Str → Prop) : JType → Prop
  | .prim _ => True
  | .cls n => P n
  | .arr t => t.Names P

/-- A class name the JVM accepts in a descriptor: it does not contain ';'. -/
def NoSemi (n : Str) : Prop := ';' ∉ n

/-- Return type of a method: `none` is void. -/
def retDesc : Option JType → Str
  | none => ['V']
  | some t => t.desc

def retJava : Option JType → Str
  | none => "void".toList
  | some t => t.java

/-- MethodDescriptor (JVMS 4.3.3) -/
def methodDesc (args : List JType) (ret : Option JType) : Str :=
  '(' :: (args.flatMap JType.desc ++ ')' :: retDesc ret)

/-- Characters that cannot occur in a Java identifier but matter to descriptors and names. -/
def notIdent : List Char := ['/', '.', ';', '[', ']', '(', ')', ',', ':', '<', '>', ' ']

/-- Segments of a qualified class name. -/
structure JavaClassName (n : Str) : Prop where
  /-- only identifier characters and '/' -/
  chars : ∀ c ∈ n, c = '/' ∨ c ∉ notIdent
  /-- an identifier is not a keyword -/
  notPrim : ∀ p : Prim, n ≠ p.keyword
  nonempty : n ≠ []

/-- A Java identifier, or the special names `<init>` and `<clinit>`. -/
def JavaMemberName (n : Str) : Prop :=
  n ≠ [] ∧ ((∀ c ∈ n, c ∉ notIdent) ∨ n = "<init>".toList ∨ n = "<clinit>".toList)

end Javatools.Spec
