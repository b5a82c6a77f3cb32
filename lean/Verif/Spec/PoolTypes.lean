import Verif.Model.ClassFile
/-
Specification: the kinds of constant pool references (JVMS 4.4) and the value each entry
denotes, kind by kind, without recursion. Uses only the data type `Const` of the model.
-/
namespace Javatools.Spec

def Utf8At (pool : Pool) (i : Nat) (s : Str) : Prop := pool[i]? = some (some (.utf8 s))

def ClassAt (pool : Pool) (i : Nat) (s : Str) : Prop :=
  ∃ n, pool[i]? = some (some (.cls n)) ∧ Utf8At pool n s

def NameTypeAt (pool : Pool) (i : Nat) (n t : Str) : Prop :=
  ∃ a b, pool[i]? = some (some (.nameAndType a b)) ∧ Utf8At pool a n ∧ Utf8At pool b t

/-- A field, method or interface method reference. -/
def MemberRefAt (pool : Pool) (i : Nat) (c n t : Str) : Prop :=
  ∃ a b, (pool[i]? = some (some (.fieldref a b)) ∨ pool[i]? = some (some (.methodref a b)) ∨
      pool[i]? = some (some (.ifaceMethodref a b))) ∧
    ClassAt pool a c ∧ NameTypeAt pool b n t

/-- The value a constant denotes, provided its references have the kinds JVMS 4.4 demands. -/
def Denotes (pool : Pool) : Const → PVal → Prop
  | .utf8 s, v => v = .str s
  | .integer i, v => v = .int i
  | .long i, v => v = .int i
  | .float b, v => v = .flt (float32 b)
  | .double b, v => v = .flt (float64 b)
  | .cls n, v | .string n, v | .methodType n, v | .module n, v | .package n, v =>
      ∃ s, Utf8At pool n s ∧ v = .str s
  | .nameAndType a b, v | .moduleId a b, v =>
      ∃ n t, Utf8At pool a n ∧ Utf8At pool b t ∧ v = .pair (.str n) (.str t)
  | .fieldref a b, v | .methodref a b, v | .ifaceMethodref a b, v =>
      ∃ c n t, ClassAt pool a c ∧ NameTypeAt pool b n t ∧
        v = .pair (.str c) (.pair (.str n) (.str t))
  | .dynamic a b, v | .invokeDynamic a b, v =>
      ∃ n t, NameTypeAt pool b n t ∧ v = .pair (.int a) (.pair (.str n) (.str t))
  | .methodHandle k i, v =>
      ∃ c n t, MemberRefAt pool i c n t ∧
        v = .pair (.int k) (.pair (.str c) (.pair (.str n) (.str t)))

/-- Slot 0 is unusable and every entry's references have the right kinds. -/
def WellTyped (pool : Pool) : Prop :=
  pool[0]? = some none ∧ ∀ (i : Nat) c, pool[i]? = some (some c) → ∃ v, Denotes pool c v

end Javatools.Spec
