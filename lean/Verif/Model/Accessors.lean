import Verif.Model.Lines
import Verif.Model.Annotation
import Verif.Model.ClassInfoCli
/-
Model of what the objects of javatools/__init__.py keep between calls: the cached annotations
of classes and members, the cached line numbers and instructions of code, and a class object
that is unpacked more than once. Also `constants` of the pool and the accessors left over.

Simplifications: a generator is fully consumed (what it yields before an exception is kept);
the state of a class object after an unpack that raises is not modelled.
-/
namespace Javatools

/-! ### Constants -/

/-- The tag of a constant, javatools/__init__.py:80-99. -/
def Const.tag : Const → Nat
  | .utf8 _ => 1
  | .integer _ => 3
  | .float _ => 4
  | .long _ => 5
  | .double _ => 6
  | .cls _ => 7
  | .string _ => 8
  | .fieldref _ _ => 9
  | .methodref _ _ => 10
  | .ifaceMethodref _ _ => 11
  | .nameAndType _ _ => 12
  | .moduleId _ _ => 13
  | .methodHandle _ _ => 15
  | .methodType _ => 16
  | .dynamic _ _ => 17
  | .invokeDynamic _ _ => 18
  | .module _ => 19
  | .package _ => 20

/-- javatools/__init__.py:227-232 `get_const(index)`, for an index that is not negative -/
def getConst (pool : Pool) (i : Nat) : Res (Option Const) :=
  match pool[i]? with
  | none => .error .indexError
  | some c => .ok c

/-- The loop of javatools/__init__.py:310-313, `n` rounds from index `i` on: what was yielded
and the exception that ended it. -/
def derefLoop (pool : Pool) (lim : Nat) :
    Nat → Nat → List (Nat × Nat × PVal) × Option PyErr
  | 0, _ => ([], none)
  | n + 1, i =>
    match getConst pool i with
    | .error e => ([], some e)
    | .ok none => derefLoop pool lim n (i + 1)
    | .ok (some c) =>
      match deref pool lim i with
      | .error e => ([], some e)
      | .ok v =>
        let r := derefLoop pool lim n (i + 1)
        ((i, c.tag, v) :: r.1, r.2)

/-- javatools/__init__.py:304-313 `constants()` -/
def poolConstants (pool : Pool) (lim : Nat) : List (Nat × Nat × PVal) × Option PyErr :=
  derefLoop pool lim (pool.length - 1) 1

/-! ### The source debug extension -/

/-- CPython's `bytes.__repr__`: one byte. -/
def byteRepr (quote : Char) (b : UInt8) : Str :=
  let c := Char.ofNat b.toNat
  if c = quote ∨ c = '\\' then ['\\', c]
  else if c = '\t' then ['\\', 't']
  else if c = '\n' then ['\\', 'n']
  else if c = '\r' then ['\\', 'r']
  else if b.toNat < 0x20 ∨ 0x7f ≤ b.toNat then
    ['\\', 'x', hexDigit (b.toNat / 16), hexDigit (b.toNat % 16)]
  else [c]

/-- The quote CPython picks: `"` when the bytes hold `'` and no `"`. -/
def bytesQuote (bs : Bytes) : Char :=
  if (0x27 : UInt8) ∈ bs ∧ (0x22 : UInt8) ∉ bs then '"' else '\''

/-- `str(bs)` of a `bytes` object, which is `repr(bs)` -/
def bytesStr (bs : Bytes) : Str :=
  'b' :: bytesQuote bs :: (bs.flatMap (byteRepr (bytesQuote bs)) ++ [bytesQuote bs])

/-- javatools/__init__.py:775-782 `get_source_debug_extension` -/
def ClassInfo.getSourceDebugExtension (c : ClassInfo) : Option Str :=
  match getAttribute c.attribs "SourceDebugExtension" with
  | none => none
  | some [] => none
  | some (b :: bs) => some (bytesStr (b :: bs))

/-! ### Small accessors -/

/-- javatools/__init__.py:1081-1093 `get_module` -/
def Member.getModule (m : Member) (pool : Pool) (lim : Nat) : Res (Option PVal) :=
  derefAttr m.attribs pool lim "Module"

/-- javatools/__init__.py:2240-2247 `pretty_generic` -/
def prettyGeneric (s : Option PVal) : Option PVal := s

/-- javatools/__init__.py:818-823, 1073-1078 `pretty_signature` -/
def prettySignature (a : Attribs) (pool : Pool) (lim : Nat) : Res (Option PVal) :=
  (derefAttr a pool lim "Signature").map prettyGeneric

/-- javatools/__init__.py:1359-1368 `deref_annotationdefault` -/
def Member.derefAnnotationdefault (m : Member) (pool : Pool) (lim : Nat) : Res (Option PVal) := do
  match ← m.getAnnotationdefault with
  | none => .ok none
  | some i => (deref pool lim i).map some

/-! ### Cached values -/

/-- `v = self.slot; if v is None: v = fresh(); self.slot = v; return v` — the shape of
javatools/__init__.py:714-730, 1266-1290, 1669-1678, 1784-1789: a computation that raises
leaves the slot empty. -/
def cached {α : Type} (slot : Option α) (fresh : Res α) : Res α × Option α :=
  match slot with
  | some v => (.ok v, some v)
  | none =>
    match fresh with
    | .error e => (.error e, none)
    | .ok v => (.ok v, some v)

/-- The caches of a member, javatools/__init__.py:1035-1038 -/
structure MemberCache where
  annos : Option (List AVal)
  invis : Option (List AVal)
  params : Option (List (List AVal))
  invisParams : Option (List (List AVal))

def MemberCache.new : MemberCache := ⟨none, none, none, none⟩

inductive MemberCall where
  | annos
  | invis
  | params
  | invisParams

/-- What the accessors answer. -/
inductive AnnoAnswer where
  | list (r : Res (List AVal))
  | lists (r : Res (List (List AVal)))

section
variable (lim depth : Nat)

/-- javatools/__init__.py:1293-1338: the four accessors -/
def memberStep (m : Member) (pool : Pool) (st : MemberCache) :
    MemberCall → AnnoAnswer × MemberCache
  | .annos =>
    let r := cached st.annos
      (getAnnotations m.attribs pool lim depth "RuntimeVisibleAnnotations")
    (.list r.1, { st with annos := r.2 })
  | .invis =>
    let r := cached st.invis
      (getAnnotations m.attribs pool lim depth "RuntimeInvisibleAnnotations")
    (.list r.1, { st with invis := r.2 })
  | .params =>
    let r := cached st.params
      (getParamAnnotations m.attribs pool lim depth "RuntimeVisibleParameterAnnotations")
    (.lists r.1, { st with params := r.2 })
  | .invisParams =>
    let r := cached st.invisParams
      (getParamAnnotations m.attribs pool lim depth "RuntimeInvisibleParameterAnnotations")
    (.lists r.1, { st with invisParams := r.2 })

/-- The state after a history of calls. -/
def memberRun (m : Member) (pool : Pool) (st : MemberCache) (calls : List MemberCall) :
    MemberCache :=
  calls.foldl (fun st call => (memberStep lim depth m pool st call).2) st

end

/-- The caches of a code object, javatools/__init__.py:1621-1625 -/
structure CodeCache where
  dis : Option (List Insn)
  lnt : Option (List (Nat × Nat))

def CodeCache.new : CodeCache := ⟨none, none⟩

inductive CodeCall where
  | lnt
  | relative
  | line (offset : Nat)
  | byLines
  | dis

inductive CodeAnswer where
  | lnt (r : Res (List (Nat × Nat)))
  | relative (r : Res (List (Nat × Int)))
  | line (r : Res Nat)
  | byLines (r : Res (List LineGroup))
  | dis (r : Res (List Insn))

/-- javatools/__init__.py:1662-1678 `get_linenumbertable` -/
def lntStep (c : CodeInfo) (st : CodeCache) : Res (List (Nat × Nat)) × CodeCache :=
  let r := cached st.lnt c.getLinenumbertable
  (r.1, { st with lnt := r.2 })

/-- javatools/__init__.py:1778-1789 `disassemble` -/
def disStep (c : CodeInfo) (st : CodeCache) : Res (List Insn) × CodeCache :=
  let r := cached st.dis c.disassemble
  (r.1, { st with dis := r.2 })

/-- javatools/__init__.py:1662-1789: the accessors of code. In `iter_code_by_lines` the calls
of `get_line_for_offset` find the table that its first line has put in the cache. -/
def codeStep (c : CodeInfo) (st : CodeCache) : CodeCall → CodeAnswer × CodeCache
  | .lnt => let r := lntStep c st; (.lnt r.1, r.2)
  | .relative => let r := lntStep c st; (.relative (r.1.map relativeTable), r.2)
  | .line pc => let r := lntStep c st; (.line (r.1.map fun t => lineForOffset t pc), r.2)
  | .dis => let r := disStep c st; (.dis r.1, r.2)
  | .byLines =>
    match lntStep c st with
    | (.error e, st) => (.byLines (.error e), st)
    | (.ok lnt, st) => let r := disStep c st; (.byLines (r.1.map (codeByLines lnt)), r.2)

def codeRun (c : CodeInfo) (st : CodeCache) (calls : List CodeCall) : CodeCache :=
  calls.foldl (fun st call => (codeStep c st call).2) st

/-! ### Class objects -/

/-- A `JavaClassInfo` with its caches, javatools/__init__.py:455-472 -/
structure ClassObj where
  info : ClassInfo
  annos : Option (List AVal)
  invis : Option (List AVal)
  api : ApiCache

/-- `JavaClassInfo()`, javatools/__init__.py:455-472 -/
def ClassObj.new : ClassObj :=
  ⟨⟨(0, 0), [], 0, 0, 0, [], [], [], []⟩, none, none, .empty⟩

/-- What can be asked of a class object: the parts of it, and the four answers it keeps. -/
inductive ClassAsk where
  | version
  | platform
  | access
  | const (i : Nat)
  | this
  | super
  | interfaces
  | fields
  | methods
  | attrib (name : String)
  | annos
  | invis
  | provides (ignored : List Str) (isPrivate : Bool)
  | requires (ignored : List Str)

inductive ClassAnswer where
  | version (v : Nat × Nat)
  | platform (p : Option String)
  | access (n : Nat)
  | value (r : Res PVal)
  | values (r : Res (List PVal))
  | members (ms : List Member)
  | buffer (b : Option Bytes)
  | annos (r : Res (List AVal))
  | symbols (r : Res (List Str))

section
variable (glob : Str → Str → Bool) (lim depth : Nat)

/-- javatools/__init__.py:475-488 (`deref_const`, `get_attribute`), 604-618 (`get_version`,
`get_platform`), 680-754, 992-1020: one call. -/
def ClassObj.step (o : ClassObj) : ClassAsk → ClassAnswer × ClassObj
  | .version => (.version o.info.version, o)
  | .platform => (.platform (platformFromVersion o.info.version.1 o.info.version.2), o)
  | .access => (.access o.info.access, o)
  | .const i => (.value (deref o.info.pool lim i), o)
  | .this => (.value (o.info.getThis lim), o)
  | .super => (.value (o.info.getSuper lim), o)
  | .interfaces => (.values (o.info.getInterfaces lim), o)
  | .fields => (.members o.info.fields, o)
  | .methods => (.members o.info.methods, o)
  | .attrib name => (.buffer (getAttribute o.info.attribs name), o)
  | .annos =>
    let r := cached o.annos
      (getAnnotations o.info.attribs o.info.pool lim depth "RuntimeVisibleAnnotations")
    (.annos r.1, { o with annos := r.2 })
  | .invis =>
    let r := cached o.invis
      (getAnnotations o.info.attribs o.info.pool lim depth "RuntimeInvisibleAnnotations")
    (.annos r.1, { o with invis := r.2 })
  | .provides ig p =>
    let r := getProvides glob o.info lim ig p o.api
    (.symbols r.1, { o with api := r.2 })
  | .requires ig =>
    let r := getRequires glob o.info lim ig o.api
    (.symbols r.1, { o with api := r.2 })

/-- The object after a history of calls. -/
def ClassObj.asked (o : ClassObj) (calls : List ClassAsk) : ClassObj :=
  calls.foldl (fun o call => (o.step glob lim depth call).2) o

end

/-- `d[k] = v` for each pair in turn -/
def Attribs.overlay (old new : Attribs) : Attribs := new.foldl (fun d p => PyDict.set d p.1 p.2) old

/-- javatools/__init__.py:491-540 `JavaClassInfo.unpack` into an object that may have been used
before, when it does not raise: every part is assigned but the attributes, which are put into
the dictionary that is there (:433-445), and the caches, which stay. -/
def ClassObj.unpack (o : ClassObj) (lim : Nat) (d : Bytes) : Res ClassObj := do
  let c ← (unpackClassProg lim).run d
  .ok { o with info := { c with attribs := Attribs.overlay o.info.attribs c.attribs } }

end Javatools
