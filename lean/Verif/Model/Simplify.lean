import Verif.Model.ClassInfoCli

/-! `cli_simplify_field` and `cli_simplify_method`: the dictionaries that describe members. -/

namespace Javatools

/-- The values of the dictionary. -/
inductive SimpleVal where
  | val (v : PVal)
  | text (s : Str)
  | texts (ts : List Str)
  | flag (b : Bool)
  | const (kind text : Str)

variable (E : PrintEnv) (m : Member) (pool : Pool)

/-- What both functions begin with (javatools/classinfo.py:295-297, 315-317). -/
def simplifyHead (data : PyDict Str SimpleVal) : Res (PyDict Str SimpleVal) :=
  match m.getName pool E.lim with
  | .error e => .error e
  | .ok n =>
    match m.prettyType pool E.lim with
    | .error e => .error e
    | .ok t => .ok (((data.set "name".toList (.val n)).set "type".toList (.text t)).set "access_flags".toList
        (.texts ((m.prettyAccessFlags false).map String.toList)))

/-- The generic signature and whether the member is deprecated, each only if it is true
(javatools/classinfo.py:299-300, 320-321, 371-377). -/
def simplifyMarks (data : PyDict Str SimpleVal) : Res (PyDict Str SimpleVal) :=
  match derefAttr m.attribs pool E.lim "Signature" with
  | .error e => .error e
  | .ok s =>
    let data := match truthyOnly s with
      | some v => data.set "signature".toList (.val v)
      | none => data
    .ok (if isDeprecated m.attribs then data.set "deprecated".toList (.flag true) else data)

/-- javatools/classinfo.py:291-308 `cli_simplify_field`; the dictionary that is given, or an empty one. What an
exception leaves in a given dictionary is not modelled. -/
def simplifyField (data : PyDict Str SimpleVal) : Res (PyDict Str SimpleVal) := do
  let data ← simplifyHead E m pool data
  let data ← simplifyMarks E m pool data
  match ← m.getConstantvalue with
  | none => .ok data
  | some i =>
    match ← poolText E pool i with
    | none => .ok data
    | some (t, v) => .ok (data.set "constant_value".toList (.const t v))

/-- javatools/classinfo.py:311-323 `cli_simplify_method` -/
def simplifyMethod (data : PyDict Str SimpleVal) : Res (PyDict Str SimpleVal) := do
  let data ← simplifyHead E m pool data
  let args ← m.prettyArgTypes pool E.lim
  simplifyMarks E m pool (data.set "arg_types".toList (.texts args))

end Javatools
