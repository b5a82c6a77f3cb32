import Verif.Model.ClassFile
import Verif.Spec.ClassFile
/-
Specification: the object a class-file structure should be read as (the intended abstraction
map from `Spec.ClassS` to the reader's result type; it uses no reader function).
-/
namespace Javatools
open Spec

/-- The Python text of a string of code units: surrogate code units are lost (see C11). -/
def javaText (us : List Nat) : Str := (us.filter (fun u => ¬ isSurrogate u)).map Char.ofNat

/-- The pool entry a constant should be read as. -/
def constOf : CpInfo → Const
  | .utf8 us => .utf8 (javaText us)
  | .integer v => .integer v
  | .float b => .float b
  | .long v => .long v
  | .double b => .double b
  | .cls n => .cls n
  | .string n => .string n
  | .fieldref a b => .fieldref a b
  | .methodref a b => .methodref a b
  | .ifaceMethodref a b => .ifaceMethodref a b
  | .nameAndType a b => .nameAndType a b
  | .moduleId a b => .moduleId a b
  | .methodHandle k i => .methodHandle k i
  | .methodType n => .methodType n
  | .dynamic a b => .dynamic a b
  | .invokeDynamic a b => .invokeDynamic a b
  | .module n => .module n
  | .package n => .package n

/-- What the reader should produce for a constant pool. -/
def poolOf (es : List CpInfo) : Pool := none :: (cpSlots es).map (Option.map constOf)

/-- Text of the Utf8 entry at a JVM index ("" if there is none). -/
def textAt (es : List CpInfo) (i : Nat) : Str :=
  match (none :: cpSlots es)[i]? with
  | some (some (.utf8 us)) => javaText us
  | _ => []

/-- The attribute dictionary the reader should produce. -/
def attribsOf (es : List CpInfo) (as : List AttrS) : Attribs :=
  PyDict.ofPairs (as.map fun a => (PVal.str (textAt es a.name), a.info))

def memberOf (es : List CpInfo) (isMethod : Bool) (m : MemberS) : Member :=
  ⟨m.access, m.name, m.desc, attribsOf es m.attrs, isMethod⟩

/-- The object the reader should produce. -/
def classOf (c : ClassS) : ClassInfo where
  version := (c.major, c.minor)
  pool := poolOf c.pool
  access := c.access
  thisRef := c.this
  superRef := c.super
  interfaces := c.interfaces
  fields := c.fields.map (memberOf c.pool false)
  methods := c.methods.map (memberOf c.pool true)
  attribs := attribsOf c.pool c.attrs

end Javatools
