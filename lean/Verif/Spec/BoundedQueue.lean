/-!
# Specification: a bounded FIFO queue with an access word
-/

namespace Spec.BoundedQueue

inductive Call where
  | write (x : Nat)
  | read
  | queued

/-- One call on a queue of capacity `cap`: the new contents (oldest first) and the result. -/
def exec (cap : Nat) (q : List Int) : Call → List Int × Int
  | .write x => if q.length < cap then (q ++ [(x : Int)], 0) else (q, -11 /- EAGAIN -/)
  | .read => match q with
    | [] => ([], -11)
    | x :: q' => (q', x)
  | .queued => (q, q.length)

/-- Results of a whole history. -/
def results (cap : Nat) : List Int → List Call → List Int
  | _, [] => []
  | q, c :: cs => (exec cap q c).2 :: results cap (exec cap q c).1 cs

/-- What a writer may be told, and what it means for the queue `q`, `q'` being the queue after. `down`, `rdonly`: the
access restrictions in force when the call returns. -/
inductive WriteEffect (cap : Nat) (down rdonly : Prop) (q : List Int) (x : Int) : Int → List Int → Prop
  /-- success: the element is in the queue, behind everything already there, and there was room for it -/
  | done (room : q.length < cap) : WriteEffect cap down rdonly q x 0 (q ++ [x])
  /-- the queue is full -/
  | full (h : q.length = cap) : WriteEffect cap down rdonly q x (-11) q
  /-- the flow is down -/
  | down (h : down) : WriteEffect cap down rdonly q x (-1005) q
  /-- the ring is read-only -/
  | rdonly (h : rdonly) (h2 : ¬ down) : WriteEffect cap down rdonly q x (-1000) q
  /-- the deadline passed -/
  | timeout : WriteEffect cap down rdonly q x (-110) q

/-- What a reader may be told. -/
inductive ReadEffect (down peer : Prop) (q : List Int) : Int → List Int → Prop
  | done (x : Int) (q' : List Int) (h : q = x :: q') : ReadEffect down peer q x q'
  | empty (h : q = []) (h2 : ¬ down) (h3 : ¬ peer) : ReadEffect down peer q (-11) q
  | down (h : q = []) (h2 : down) : ReadEffect down peer q (-1005) q
  | peer (h : q = []) (h2 : peer) (h3 : ¬ down) : ReadEffect down peer q (-1006) q
  | timeout (h : q = []) : ReadEffect down peer q (-110) q

end Spec.BoundedQueue
