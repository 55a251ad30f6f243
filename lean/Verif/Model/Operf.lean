import Verif.Model.Base

/-!
# Model of operf and ovpn (src/tools/operf, src/tools/ovpn/ovpn.c)

Simplifications: threads run one after the other, as they share nothing but what is written here; counters do not wrap.
-/

namespace Ouro.Operf

/-- `reader` of the client (src/tools/operf/operf_client.c:67-94): what `flow_read` returns, `none` for a time-out; the number of replies. -/
def reader (size : Int) : List (Option Int) → Nat
  | [] => 0
  | none :: _ => 0
  | some n :: l => if n = size then reader size l + 1 else reader size l

/-- `writer` of the client (src/tools/operf/operf_client.c:136-161): for each packet whether `flow_write` succeeds; the ids on the wire and the counter. -/
def writer : List Bool → Nat → List Nat × Nat
  | [], sent => ([], sent)
  | false :: _, sent => ([], sent)
  | true :: l, sent => let r := writer l (sent + 1); (sent :: r.1, r.2)

/-- The loss that is printed, with the division of `long` (src/tools/operf/operf_client.c:231-232). -/
def loss (sent rcvd : Nat) : Int := if sent = 0 then 0 else 100 - (100 * (rcvd : Int)).tdiv sent

/-- What a client sends after its flow is accepted and before it closes it or falls silent: the lengths of its messages, and the
word that `conf` holds once the first is read (src/tools/operf/operf_server.c:146-148). -/
structure Client where
  type : Nat
  msgs : List Nat
  deriving DecidableEq, Repr

/-- `part_idx` (src/lib/dev.c:73-74, 100): `NO_PART`, `DONE_PART` or a packet, by what is left of it. -/
inductive Part where
  | no
  | done
  | left (n : Nat)
  deriving DecidableEq, Repr

/-- The end of `flow_read` on a packet of `n` bytes (src/lib/dev.c:1406-1440): what it returns, `part_idx` and the packets that wait.
Line 1432 releases all of the packet. -/
def take (n : Nat) (l : List Nat) (count : Nat) : Nat × Part × List Nat :=
  if n ≤ count then (n, if n = count then .done else .no, l) else (count, .left 0, l)

/-- `flow_read` without a time-out on a flow with partial reads (src/lib/dev.c:1341-1446): `none` if it waits for ever or the flow is closed. -/
def flowRead (p : Part) (l : List Nat) (count : Nat) : Option (Nat × Part × List Nat) :=
  match p, l with
  | .done, l => some (0, .no, l)
  | .left n, l => some (take n l count)
  | .no, n :: l => some (take n l count)
  | .no, [] => none

/-- The server: `conf`, of which there are 256, the flows that are served, and whether it accepts (src/tools/operf/operf.c:63, 93-102). -/
structure St where
  conf : List Nat
  flows : List Nat
  accepting : Bool
  deriving DecidableEq, Repr

/-- `server` at the start (src/tools/operf/operf.c:63, 93-102). -/
def St.init : St := ⟨List.replicate 256 0, [], true⟩

/-- A pass of `accept_thread` (src/tools/operf/operf_server.c:137-173): outside of the array is undefined, for `times` as for `conf`.
A server that waits for ever does not accept either. -/
def accept (s : St) (fd : Nat) (c : Client) : Outcome St :=
  match flowRead .no c.msgs 4 with
  | none => .ok { s with accepting := false }
  | some (_, p, l) => (wr s.conf fd c.type).bind fun conf =>
    match flowRead p l 0 with
    | some (0, _, _) => .ok { s with conf := conf, flows := fd :: s.flows }
    | _ => .ok { s with conf := conf, accepting := false }

/-- `accept_thread` (src/tools/operf/operf_server.c:126-176). -/
def serve : List (Nat × Client) → St → Outcome St
  | [], s => .ok s
  | (fd, c) :: l, s => if s.accepting then (accept s fd c).bind (serve l) else .ok s

/-- `check_mask` (src/tools/ovpn/ovpn.c:171-177): whether a mask is refused. -/
def badMask (m : BitVec 32) : Bool := if m = 0 then false else (~~~m &&& (~~~m + 1)) ≠ 0

/-- What becomes of `--mask` (src/tools/ovpn/ovpn.c:224-230, 258-261): -1 stands for no mask. -/
def maskOk (m : BitVec 32) : Bool := !badMask m && m ≠ BitVec.allOnes 32

end Ouro.Operf
