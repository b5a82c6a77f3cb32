import Verif.Model.Change
/-
Model of the change objects of javatools/change.py with the state they keep between calls: the
verdict (`changed`, `description`) and the cache of child changes (`changes`), including the
state that an exception leaves behind.

Simplification: `collect_impl` depends on the compared data only, so every run of it on an object
creates the same new children or raises the same exception. Objects that were cleared are not
used any more. Which methods a class overrides is data of the node, as in `Verif.Model.Change`.
-/
namespace Javatools

/-- A change object with its state. -/
inductive Obj (O : Type) where
  /-- `Change`, `Addition`, `Removal` and `GenericChange`, javatools/change.py:121-361; `cmp` is the
  outcome of `check_impl`, if the class has one. -/
  | leaf (h : Hdr O) (cmp : Option (Res (Bool × Option Str))) (changed : Bool) (desc : Option Str)
  /-- `SuperChange`, javatools/change.py:384-532. `impl` are the new objects `collect_impl`
  creates, unless it raises `err`; `cache` is `self.changes`; `short` is the outcome of an
  overridden `check_impl` that does not look at the children (javatools/classdiff.py:617-624). -/
  | super (h : Hdr O) (short : Option Bool) (impl : List (Obj O)) (err : Option PyErr)
      (changed : Bool) (desc : Option Str) (cache : List (Obj O))
  /-- `SquashedChange`, javatools/change.py:535-587 -/
  | squashed (h : Hdr O) (origclass : String) (changed : Bool) (desc : Str) (ignored : Bool)

namespace Obj
variable {O : Type}

def hdr : Obj O → Hdr O
  | leaf h .. => h
  | super h .. => h
  | squashed h .. => h

/-- javatools/change.py:161-162, 219-220, 231-232, 560-561 `is_change` -/
def isChange : Obj O → Bool
  | leaf h _ changed _ => match h.kind with
    | .plain => changed
    | _ => true
  | super h _ _ _ changed _ _ => match h.kind with
    | .plain => changed
    | _ => true
  | squashed _ _ changed _ _ => changed

/-- javatools/change.py:174-176 `get_description`, or the override of the class -/
def getDescription : Obj O → Str
  | leaf h cmp changed desc => match h.describe with
    | some f => f (leaf h cmp changed desc).isChange
    | none => Change.orDefault desc
        (Change.defaultDescription h.label (leaf h cmp changed desc).isChange)
  | super h short impl err changed desc cache => match h.describe with
    | some f => f (super h short impl err changed desc cache).isChange
    | none => Change.orDefault desc
        (Change.defaultDescription h.label (super h short impl err changed desc cache).isChange)
  | squashed h _ changed desc _ => Change.orDefault (some desc)
      (Change.defaultDescription h.label changed)

/-- javatools/change.py:179-180 and 444-454 `collect(force)`: the children, and the object with its
cache filled. When `collect_impl` raises the cache stays as it was. -/
def collect (force : Bool) : Obj O → Res (List (Obj O)) × Obj O
  | super h short impl err changed desc cache =>
    if force || cache.isEmpty then
      match err with
      | some e => (.error e, super h short impl err changed desc cache)
      | none => (.ok impl, super h short impl err changed desc impl)
    else (.ok cache, super h short impl err changed desc cache)
  | o => (.ok [], o)

mutual
/-- `is_ignored`: javatools/change.py:165-171, 471-488, 556-557 and the overrides. Asking a
composite fills its cache. -/
def isIgnored (x : O) : Obj O → Res Bool × Obj O
  | leaf h cmp changed desc =>
    (.ok (match h.ign with
      | .inherit => false
      | .only rule => rule x
      | .orElse rule => rule x || false), leaf h cmp changed desc)
  | super h short impl err changed desc cache =>
    let self := super h short impl err changed desc cache
    let base :=
      if !self.isChange then (.ok false, self)
      else if cache.isEmpty then
        match err with
        | some e => (.error e, self)
        | none =>
          if impl.isEmpty then (.ok false, self)
          else
            let r := allIgnored x impl
            (r.1, super h short impl err changed desc r.2)
      else
        let r := allIgnored x cache
        (r.1, super h short impl err changed desc r.2)
    match h.ign with
    | .inherit => base
    | .only rule => (.ok (rule x), self)
    | .orElse rule => if rule x then (.ok true, self) else base
  | squashed h oc changed desc ignored => (.ok ignored, squashed h oc changed desc ignored)
/-- javatools/change.py:485-488: the loop over the children. -/
def allIgnored (x : O) : List (Obj O) → Res Bool × List (Obj O)
  | [] => (.ok true, [])
  | c :: cs =>
    if !c.isChange then
      let r := allIgnored x cs
      (r.1, c :: r.2)
    else
      let a := isIgnored x c
      match a.1 with
      | .error e => (.error e, a.2 :: cs)
      | .ok false => (.ok false, a.2 :: cs)
      | .ok true =>
        let r := allIgnored x cs
        (r.1, a.2 :: r.2)
end

mutual
/-- `check`: javatools/change.py:149-150, 355-361 and 457-468. The exception it raises, if any, and
the object afterwards: an exception leaves `changed` and `description` alone, but the cache is
filled and the children before the failing one are checked. -/
def check : Obj O → Option PyErr × Obj O
  | leaf h none changed desc => (none, leaf h none changed desc)
  | leaf h (some r) changed desc =>
    match r with
    | .error e => (some e, leaf h (some r) changed desc)
    | .ok (c, d) => (none, leaf h (some r) c d)
  | super h (some b) impl err _ _ cache => (none, super h (some b) impl err b none cache)
  | super h none impl err changed desc cache =>
    if cache.isEmpty then
      match err with
      | some e => (some e, super h none impl err changed desc cache)
      | none =>
        let r := checkAll impl false
        match r.1 with
        | .error e => (some e, super h none impl err changed desc r.2)
        | .ok c => (none, super h none impl err c none r.2)
    else
      let r := checkAll cache false
      match r.1 with
      | .error e => (some e, super h none impl err changed desc r.2)
      | .ok c => (none, super h none impl err c none r.2)
  | squashed h oc changed desc ignored => (none, squashed h oc changed desc ignored)
/-- javatools/change.py:464-468: the loop over the children. -/
def checkAll : List (Obj O) → Bool → Res Bool × List (Obj O)
  | [], c => (.ok c, [])
  | x :: xs, c =>
    let a := check x
    match a.1 with
    | some e => (.error e, a.2 :: xs)
    | none =>
      let r := checkAll xs (c || a.2.isChange)
      (r.1, a.2 :: r.2)
end

/-- javatools/change.py:545-553, 590-606: the squashed form of a change that is ignored or not. -/
def squashedForm (c : Obj O) (ignored : Bool) : Obj O :=
  let cls := match c.hdr.kind with
    | .removal => "SquashedRemoval"
    | .addition => "SquashedAddition"
    | .plain => "SquashedChange"
  squashed { typeName := cls, label := c.hdr.label, entry := c.hdr.entry, kind := c.hdr.kind }
    c.hdr.typeName c.isChange c.getDescription ignored

/-- javatools/change.py:590-606 `squash(change, options=options)`: the squashed form, and the change
itself, whose cache `is_ignored` may have filled. -/
def squash (x : O) (c : Obj O) : Res (Obj O) × Obj O :=
  let a := isIgnored x c
  match a.1 with
  | .error e => (.error e, a.2)
  | .ok b => (.ok (squashedForm a.2 b), a.2)

/-- javatools/change.py:529: the squashed forms in turn, and the changes afterwards. -/
def squashAll (x : O) : List (Obj O) → Res (List (Obj O)) × List (Obj O)
  | [] => (.ok [], [])
  | c :: cs =>
    let a := squash x c
    match a.1 with
    | .error e => (.error e, a.2 :: cs)
    | .ok s =>
      let r := squashAll x cs
      (match r.1 with
        | .error e => .error e
        | .ok ss => .ok (s :: ss), a.2 :: r.2)

/-- `self.changes = l` -/
def setCache (l : List (Obj O)) : Obj O → Obj O
  | super h short impl err changed desc _ => super h short impl err changed desc l
  | o => o

/-- javatools/change.py:522-532 `squash_children`: the exception it raises, if any, and the object
afterwards (the cleared old children are unreachable from it). Only composites have it. -/
def squashChildren (x : O) (o : Obj O) : Option PyErr × Obj O :=
  match o.collect false with
  | (.error e, o') => (some e, o')
  | (.ok subs, o') =>
    let r := squashAll x subs
    match r.1 with
    | .error e => (some e, o'.setCache r.2)
    | .ok l => (none, o'.setCache l)

/-! ### Clients -/

/-- The questions a client asks a change object. -/
inductive Ask (O : Type) where
  | isChange
  | description
  | label
  | entry
  | isIgnored (x : O)
  /-- the number of children, as `len(change.collect())` -/
  | count

inductive Ans where
  | bool (b : Bool)
  | text (s : Str)
  | none
  | nat (n : Nat)
  deriving DecidableEq, Repr

/-- Asking one object. -/
def ask : Ask O → Obj O → Res Ans × Obj O
  | .isChange, o => (.ok (.bool o.isChange), o)
  | .description, o => (.ok (.text o.getDescription), o)
  | .label, o => (.ok (.text o.hdr.label), o)
  | .entry, o => (.ok (match o.hdr.entry with
      | some e => .text e
      | none => .none), o)
  | .isIgnored x, o =>
    let a := isIgnored x o
    (a.1.map Ans.bool, a.2)
  | .count, o =>
    let a := collect false o
    (a.1.map fun l => Ans.nat l.length, a.2)

/-- Asking a descendant, reached through `change.collect()[i]` at each step. The reports of
javatools/report.py:359-385 and javatools/change.py:498-519 and the HTML templates consist of such
calls. -/
def askAt : List Nat → Ask O → Obj O → Res Ans × Obj O
  | [], q, o => ask q o
  | i :: p, q, o =>
    match o.collect false with
    | (.error e, o') => (.error e, o')
    | (.ok subs, o') =>
      match subs[i]? with
      | none => (.error .indexError, o')
      | some c =>
        let a := askAt p q c
        (a.1, o'.setCache (subs.set i a.2))

/-- What a client does with a change: ask it or one of its descendants, or check it again. -/
inductive Call (O : Type) where
  | ask (p : List Nat) (q : Ask O)
  | check

/-- The object after one call, whatever the call returned or raised. -/
def step (o : Obj O) : Call O → Obj O
  | .ask p q => (askAt p q o).2
  | .check => (check o).2

/-- The object after some calls. -/
def run (o : Obj O) (calls : List (Call O)) : Obj O := calls.foldl step o

end Obj
end Javatools
