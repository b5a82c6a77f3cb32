import Verif.Model.Change
/-
Model of javatools/distdiff.py:405-551: `DistReport.check_impl`, without and with worker
processes.

The worker processes run concurrently with each other and with the main process, so the parallel
version is a transition system; the sequential version is a function. Both are over the same
abstract operations. `multiprocessing.Queue` is modelled as follows: `tasks`, which has one
producer, is first in first out; from `results`, which has many, anything that was put may be
taken next; getting from an empty queue waits. A worker whose task raises ends (Python prints a
traceback); interrupts by the user are not modelled.
-/
namespace Javatools

/-- The operations. -/
structure Jobs (C : Type) where
  /-- `isinstance(change, (DistJarReport, DistClassReport))` -/
  isReport : C → Bool
  /-- `change.check()`, giving the object afterwards -/
  check : C → Res C
  /-- `change.check()` and then `squash(change, options=options)` -/
  run : C → Res C
  isChange : C → Bool

variable {C : Type} (J : Jobs C)

/-- javatools/distdiff.py:491-516 `check_impl` without processes: the loop. A report's flag is that
of the object before it is squashed; `squash` keeps it (javatools/change.py:545-553). -/
def seqLoop : List C → Bool → Res (List C × Bool)
  | [], c => .ok ([], c)
  | x :: xs, c =>
    match (if J.isReport x then J.run x else J.check x) with
    | .error e => .error e
    | .ok x' =>
      match seqLoop xs (c || J.isChange x') with
      | .error e => .error e
      | .ok (xs', c') => .ok (x' :: xs', c')

/-- The children that are kept, and whether there is a change. -/
def seqCheck (cs : List C) : Res (List C × Bool) := seqLoop J cs false

/-- Where the main process is. -/
inductive MainPc where
  /-- javatools/distdiff.py:460-464: so many processes are still to be started. -/
  | starting (left : Nat)
  /-- 467-469: the next change to be checked. -/
  | checking (next : Nat)
  /-- 472-474: so many results are still to be received. -/
  | getting (left : Nat)
  /-- 484-488: the overall status. -/
  | done (c : Bool)
  | failed (e : PyErr)

/-- javatools/distdiff.py:527-551: a worker process. -/
inductive Worker (C : Type) where
  | waiting
  | busy (index : Nat) (change : C)
  | ended
  | crashed (index : Nat) (change : C)

structure MpState (C : Type) where
  main : MainPc
  /-- the entries of the tasks queue; `none` is a stop sentinel -/
  tasks : List (Option (Nat × C))
  workers : List (Worker C)
  results : List (Nat × C)
  /-- the list `changes` -/
  changes : List (Option C)
  /-- the indices of the sub-reports that workers have begun to run (for the statements) -/
  begun : List Nat

/-- javatools/distdiff.py:446-451: the entries for the tasks queue, `n` being the index of the first
change. -/
def enqueued (n : Nat) : List C → List (Nat × C)
  | [] => []
  | x :: xs => if J.isReport x then (n, x) :: enqueued (n + 1) xs else enqueued (n + 1) xs

/-- 446-451: `changes` without the sub-reports. -/
def withoutReports (cs : List C) : List (Option C) :=
  cs.map fun x => if J.isReport x then none else some x

/-- javatools/distdiff.py:430-455: before the first process is started. -/
def mpInit (processCount : Int) (cs : List C) : MpState C :=
  { main := .starting (min processCount (enqueued J 0 cs).length).toNat
    tasks := (enqueued J 0 cs).map some
    workers := []
    results := []
    changes := withoutReports J cs
    begun := [] }

/-- The steps of the main process and of the workers. `count` is `task_count`. -/
inductive MpStep (count : Nat) : MpState C → MpState C → Prop where
  /-- 460-464 -/
  | start (k : Nat) (ts ws rs cs b) :
      MpStep count ⟨.starting (k + 1), ts, ws, rs, cs, b⟩
        ⟨.starting k, ts ++ [none], ws ++ [.waiting], rs, cs, b⟩
  | started (ts ws rs cs b) :
      MpStep count ⟨.starting 0, ts, ws, rs, cs, b⟩ ⟨.checking 0, ts, ws, rs, cs, b⟩
  /-- 467-469 -/
  | skip (i : Nat) (ts ws rs cs b) (h : cs[i]? = some none) :
      MpStep count ⟨.checking i, ts, ws, rs, cs, b⟩ ⟨.checking (i + 1), ts, ws, rs, cs, b⟩
  | check (i : Nat) (ts ws rs cs b) (x x' : C) (h : cs[i]? = some (some x))
      (hx : J.check x = .ok x') :
      MpStep count ⟨.checking i, ts, ws, rs, cs, b⟩
        ⟨.checking (i + 1), ts, ws, rs, cs.set i (some x'), b⟩
  | checkFails (i : Nat) (ts ws rs cs b) (x : C) (e : PyErr) (h : cs[i]? = some (some x))
      (hx : J.check x = .error e) :
      MpStep count ⟨.checking i, ts, ws, rs, cs, b⟩ ⟨.failed e, ts, ws, rs, cs, b⟩
  | checked (i : Nat) (ts ws rs cs b) (h : cs[i]? = none) :
      MpStep count ⟨.checking i, ts, ws, rs, cs, b⟩ ⟨.getting count, ts, ws, rs, cs, b⟩
  /-- 472-474 -/
  | get (k : Nat) (ts ws) (pre post : List (Nat × C)) (i : Nat) (x : C) (cs b) :
      MpStep count ⟨.getting (k + 1), ts, ws, pre ++ (i, x) :: post, cs, b⟩
        ⟨.getting k, ts, ws, pre ++ post, cs.set i (some x), b⟩
  /-- 484-488 -/
  | finish (ts ws rs) (xs : List C) (b) :
      MpStep count ⟨.getting 0, ts, ws, rs, xs.map some, b⟩
        ⟨.done (xs.any J.isChange), ts, ws, rs, xs.map some, b⟩
  | finishFails (ts ws rs cs b) (h : none ∈ cs) :
      MpStep count ⟨.getting 0, ts, ws, rs, cs, b⟩ ⟨.failed .attributeError, ts, ws, rs, cs, b⟩
  /-- 533 -/
  | take (m) (i : Nat) (x : C) (ts) (pre post : List (Worker C)) (rs cs b) :
      MpStep count ⟨m, some (i, x) :: ts, pre ++ .waiting :: post, rs, cs, b⟩
        ⟨m, ts, pre ++ .busy i x :: post, rs, cs, b ++ [i]⟩
  | stop (m ts) (pre post : List (Worker C)) (rs cs b) :
      MpStep count ⟨m, none :: ts, pre ++ .waiting :: post, rs, cs, b⟩
        ⟨m, ts, pre ++ .ended :: post, rs, cs, b⟩
  /-- 537-546 -/
  | put (m ts) (pre post : List (Worker C)) (i : Nat) (x x' : C) (rs cs b) (hx : J.run x = .ok x') :
      MpStep count ⟨m, ts, pre ++ .busy i x :: post, rs, cs, b⟩
        ⟨m, ts, pre ++ .waiting :: post, rs ++ [(i, x')], cs, b⟩
  | crash (m ts) (pre post : List (Worker C)) (i : Nat) (x : C) (e : PyErr) (rs cs b)
      (hx : J.run x = .error e) :
      MpStep count ⟨m, ts, pre ++ .busy i x :: post, rs, cs, b⟩
        ⟨m, ts, pre ++ .crashed i x :: post, rs, cs, b⟩

/-- The states that a parallel check of `cs` can be in. -/
inductive MpReach (processCount : Int) (cs : List C) : MpState C → Prop where
  | init : MpReach processCount cs (mpInit J processCount cs)
  | step {s s' : MpState C} (h : MpReach processCount cs s)
      (hs : MpStep J (enqueued J 0 cs).length s s') : MpReach processCount cs s'

end Javatools
