import Verif.Model.Base
import Mathlib.Data.Rat.Floor

/-!
# Model of oping (src/tools/oping/oping.c, oping_client.c, oping_server.c)

Simplifications: `double` and `float` are rational numbers; the messages a client receives have all 24 bytes of the header; the counters, which are bounded by the
number of packets, do not wrap.
-/

namespace Ouro.Oping

/-- `struct timespec` in a message and of the clock (src/tools/oping/oping.c:123-128). -/
structure Time where
  sec : Int
  nsec : Int
  deriving DecidableEq, Repr

/-- `struct oping_msg` (src/tools/oping/oping.c:123-128), in host order. -/
structure Msg where
  type : Nat
  id : Nat
  sent : Time
  deriving DecidableEq, Repr

/-- `ts_diff_us` (src/tools/time_utils.h:58-59). -/
def diffUs (a b : Time) : Int := (b.sec - a.sec) * 1000000 + (b.nsec - a.nsec).tdiv 1000

/-- The statistics of the client, and the id it expects (src/tools/oping/oping.c:95-104, src/tools/oping/oping_client.c:68). -/
structure Stats where
  rcvd : Nat
  ooo : Nat
  exp : Nat
  min : ℚ
  max : ℚ
  avg : ℚ
  m2 : ℚ
  deriving DecidableEq

/-- `FLT_MAX` (float.h), used in src/tools/oping/oping_client.c:194. -/
def fltMax : ℚ := (2 ^ 24 - 1) * 2 ^ 104

/-- `client_init` (src/tools/oping/oping_client.c:189-200). -/
def Stats.init : Stats := ⟨0, 0, 0, fltMax, 0, 0, 0⟩

/-- A valid reply `id` after `ms` milliseconds (src/tools/oping/oping_client.c:96-135). -/
def Stats.reply (s : Stats) (id : Nat) (ms : ℚ) : Stats :=
  let rcvd := s.rcvd + 1
  let d := ms - s.avg
  let avg := s.avg + d / rcvd
  { rcvd := rcvd
    ooo := if id < s.exp then s.ooo + 1 else s.ooo
    exp := if s.exp ≤ id then id + 1 else s.exp
    min := if ms < s.min then ms else s.min
    max := if s.max < ms then ms else s.max
    avg := avg
    m2 := s.m2 + d * (ms - avg) }

/-- What `flow_read` gives: a message and the time it is read, an error, or a time-out (src/tools/oping/oping_client.c:75-83). -/
inductive In where
  | msg (m : Msg) (now : Time)
  | err
  | timeout
  deriving DecidableEq, Repr

/-- `reader` (src/tools/oping/oping_client.c:56-139), until it has as many replies as it counts, or the server times out. -/
def reader (count : Nat) : List In → Stats → Stats
  | [], s => s
  | x :: l, s => if s.rcvd = count then s else match x with
    | .timeout => s
    | .err => reader count l s
    | .msg m now =>
      if m.type ≠ 1 then reader count l s
      else if count ≤ m.id then reader count l s
      else reader count l (s.reply m.id ((diffUs m.sent now : ℚ) / 1000))

/-- `writer` (src/tools/oping/oping_client.c:141-187): the messages it sends when `outs` says which calls of `flow_write` succeed, and the counter. -/
def writer (count : Nat) : List (Bool × Time) → Nat → List Msg × Nat
  | [], sent => ([], sent)
  | (ok, now) :: l, sent =>
    if sent < count then
      if ok then
        let r := writer count l (sent + 1)
        (⟨0, sent, now⟩ :: r.1, r.2)
      else ([], sent + 1)
    else ([], sent)

/-- The loss that is printed (src/tools/oping/oping_client.c:257-258). -/
def loss (sent rcvd : Nat) : Int := if sent = 0 then 0 else ⌈(100 : ℚ) - 100 * ((rcvd : ℚ) / sent)⌉

/-- What the options become: interval and count, with the interval cut after the count is computed (src/tools/oping/oping.c:229-234, 261-264); 0 for no duration. -/
def timing (interval count duration : Nat) : Nat × Nat :=
  let count := if 0 < duration then (if interval = 0 then duration * 10 else duration / interval) else count
  (if 10000 < interval then 10000 else interval, count)

/-- The size of the packets (src/tools/oping/oping.c:265-273). -/
def size (n : Int) : Int :=
  let n := if 1500 < n then 1500 else n
  if n < 64 then 64 else n

/-- `OPING_MAX_FLOWS`, the size of `server.times` (src/tools/oping/oping.c:66, 111). -/
def maxFlows : Nat := 256

/-- `accept_thread` notes the time of a new flow (src/tools/oping/oping_server.c:150-152): outside the array is undefined. -/
def accepted (times : List Time) (fd : Nat) (now : Time) : Outcome (List Time) := wr times fd now

/-- `server_thread` reads a packet (src/tools/oping/oping_server.c:99-120): the buffer, the times and what it writes. -/
def serve (times : List Time) (buf : List UInt8) (fd : Nat) (pkt : List UInt8) (now : Time) : Outcome (List Time × List UInt8 × Option (List UInt8)) :=
  let buf := pkt ++ buf.drop pkt.length
  if buf.take 4 = [0, 0, 0, 0] then
    (wr times fd now).bind fun times =>
      let buf := [0, 0, 0, 1] ++ buf.drop 4
      .ok (times, buf, some (buf.take pkt.length))
  else .ok (times, buf, none)

end Ouro.Oping
