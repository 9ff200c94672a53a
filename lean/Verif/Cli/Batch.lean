import Verif.Base

/-! Model of batches of requests: `push_requests` and the callbacks it makes, in the persistent clients
of HTTP/1.1 (`1.1/client.cpp` 413-450), HTTP/2 (`2/client.cpp` 217-321, 543-594) and HTTP/3
(`3/client.cpp` 192-273, 344-380).

The requests of a batch are completed one by one by the machinery of the client, each at most once
(C126 for HTTP/1.1), in any order and mixed with other batches: these completions are the input.
A batch under way is an entry of `_active_batches`. Simplified: re-entrant calls from within a batch
callback are not modelled (the HTTP/2 client erases the entry after the callback, 292-296, the others
before). -/

namespace Verif.Cli

inductive Kind where
  | h1 | h2 | h3
  deriving DecidableEq, Repr

/-- A response: its status, and a number standing for the rest. -/
structure Resp where
  status : Nat
  tag : Nat
  deriving DecidableEq, Repr

/-- The default constructor of `Response`, response.h 56-61: status 200 OK. -/
def Resp.default : Resp := ⟨200, 0⟩

/-- `create_error_response(SERVICE_UNAVAILABLE, ...)`. -/
def Resp.unavailable : Resp := ⟨503, 0⟩

/-- `BatchRequestContext`: 1.1/client.h 78-82, 2/client.h 119-127, 3/client.h 87-92. `flags` is
`completed` (HTTP/3 only). -/
structure Batch where
  id : Nat
  responses : List Resp
  flags : List Bool
  count : Nat
  deriving DecidableEq, Repr

/-- `_active_batches`, `_next_batch_id`, and the batch callbacks invoked so far (newest last). -/
structure Batches where
  active : List Batch
  next : Nat
  emitted : List (Nat × List Resp)
  deriving DecidableEq, Repr

inductive Op where
  /-- `push_requests`; for each request the error response `prepare_request` gives, if any -/
  | start (prep : List (Option Resp))
  /-- request `i` of batch `id` is completed with `r` -/
  | complete (id i : Nat) (r : Resp)
  /-- `fail_all_requests` of HTTP/2 and HTTP/3; in HTTP/1.1 every request is completed by itself -/
  | failAll
  deriving Repr

/-- `push_requests`. A batch without requests is answered at once: 1.1/client.cpp 418-421,
2/client.cpp 219-225, 3/client.cpp 194-199 (no batch number is used there; the model spends one).
Requests `prepare_request` refuses are completed at once; in HTTP/1.1 through the callback (372-376), in
the others directly (2: 262-267, 3: 224-230); if none is left the batch is answered at once
(2: 304-308, 3: 256-263). -/
def Batches.start (s : Batches) (prep : List (Option Resp)) : Batches :=
  let b : Batch := ⟨s.next, prep.map (·.getD Resp.default), prep.map (·.isSome), prep.countP (·.isSome)⟩
  if b.count = b.responses.length then
    { s with next := s.next + 1, emitted := s.emitted ++ [(b.id, b.responses)] }
  else { s with next := s.next + 1, active := s.active ++ [b] }

/-- The callback of one request of a batch: 1.1/client.cpp 432-447, 2/client.cpp 274-298,
3/client.cpp 237-251. -/
def Batches.complete (s : Batches) (id i : Nat) (r : Resp) : Batches :=
  match s.active.find? (·.id = id) with
  | none => s
  | some b =>
    let b' := { b with responses := b.responses.set i r, flags := b.flags.set i true, count := b.count + 1 }
    if b'.count = b'.responses.length then
      { s with active := s.active.filter (·.id ≠ id), emitted := s.emitted ++ [(id, b'.responses)] }
    else { s with active := s.active.map fun x => if x.id = id then b' else x }

/-- What `fail_all_requests` puts in the place of the missing responses of a batch: HTTP/2 goes by the
status 0 of a response that was not set (2/client.cpp 584-588), HTTP/3 by the flags (3/client.cpp
372-377). -/
def Batch.fill (k : Kind) (b : Batch) : List Resp :=
  match k with
  | .h2 => b.responses.map fun r => if r.status = 0 then .unavailable else r
  | _ => List.zipWith (fun r f => if f then r else Resp.unavailable) b.responses b.flags

/-- `fail_all_requests`, the part about batches: 2/client.cpp 578-592, 3/client.cpp 370-379. The order
of the batches is that of the hash map; here that of their start. -/
def Batches.failAll (k : Kind) (s : Batches) : Batches :=
  match k with
  | .h1 => s
  | _ => { s with active := [], emitted := s.emitted ++ s.active.map fun b => (b.id, b.fill k) }

def Batches.step (k : Kind) (s : Batches) : Op → Batches
  | .start prep => s.start prep
  | .complete id i r => s.complete id i r
  | .failAll => s.failAll k

def Batches.run (k : Kind) (s : Batches) (ops : List Op) : Batches := ops.foldl (Batches.step k) s

def Batches.init : Batches := ⟨[], 1, []⟩

/-! ### Specification -/

/-- What a batch callback should be given, following the history after the start of the batch: the
responses by position as soon as there are all of them; if the client fails first, the responses it
has, with `lost` in the place of the others; nothing yet otherwise. -/
def outcome (k : Kind) (lost : Resp) (id : Nat) : List (Option Resp) → List Op → Option (List Resp)
  | slots, ops =>
    if slots.all (·.isSome) then some (slots.map (·.getD lost))
    else match ops with
    | [] => none
    | .complete id' i r :: ops => if id' = id then outcome k lost id (slots.set i (some r)) ops else outcome k lost id slots ops
    | .failAll :: ops => if k = .h1 then outcome k lost id slots ops else some (slots.map (·.getD lost))
    | .start _ :: ops => outcome k lost id slots ops
termination_by _ ops => ops.length

/-- Every request of the batch is completed at most once, is one of its requests and one that was not
refused at once; and the responses are such that they have a status. -/
def Proper (id : Nat) : List (Option Resp) → List Op → Prop
  | _, [] => True
  | slots, .complete id' i r :: ops =>
    if id' = id then slots[i]? = some none ∧ r.status ≠ 0 ∧ Proper id (slots.set i (some r)) ops else Proper id slots ops
  | slots, _ :: ops => Proper id slots ops

/-- The invocations of the callback of batch `id`. -/
def Batches.callbacks (s : Batches) (id : Nat) : List (List Resp) := s.emitted.filterMap fun p => if p.1 = id then some p.2 else none

/-- What the client puts for a request that got no answer: an error in HTTP/3; in HTTP/2 the default
response. -/
def lostResp : Kind → Resp
  | .h2 => .default
  | _ => .unavailable

end Verif.Cli
