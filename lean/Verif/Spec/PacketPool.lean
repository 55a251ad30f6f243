/-!
# What a user of the packet pool relies on (C04, C05)

Written without reference to the implementation. A pool is `n * B` bytes. A packet buffer at index `idx` starts at byte
`idx * B`: a 48 byte header, then a payload area of 256 bytes head space, `len` bytes, 32 bytes tail space.
-/

namespace Spec.PacketPool

/-- A packet that has been handed out and not yet released by all its holders. -/
structure Buf where
  idx : Nat
  len : Nat
  refs : Nat
  deriving Repr, DecidableEq

/-- First byte. -/
def Buf.start (B : Nat) (b : Buf) : Nat := b.idx * B
/-- One past the last byte. -/
def Buf.stop (B : Nat) (b : Buf) : Nat := b.idx * B + 48 + 256 + b.len + 32

/-- No byte in common. -/
def Apart (B : Nat) (a b : Buf) : Prop := a.stop B ≤ b.start B ∨ b.stop B ≤ a.start B

/-- All packets are pairwise apart and inside a pool of `n * B` bytes. -/
def Placed (B n : Nat) (live : List Buf) : Prop :=
  live.Pairwise (Apart B) ∧ ∀ b ∈ live, b.stop B ≤ n * B

/-- What a call does to the set of packets in use. -/
inductive Event where
  | got (idx len : Nat)
  | released (idx : Nat)
  | held (idx : Nat)
  | unheld (idx : Nat)
  | none
  deriving Repr, DecidableEq

/-- A release by one of several holders is ignored (the holder that put an extra hold on the packet gives that up first);
a release by the only holder ends the life of the packet. -/
def after (live : List Buf) : Event → List Buf
  | .got idx len => { idx := idx, len := len, refs := 1 } :: live
  | .released idx => live.filter fun b => !(b.idx == idx && b.refs == 1)
  | .held idx => live.map fun b => if b.idx = idx then { b with refs := b.refs + 1 } else b
  | .unheld idx => live.map fun b => if b.idx = idx then { b with refs := b.refs - 1 } else b
  | .none => live

end Spec.PacketPool

namespace Spec.PacketWindow

/-- The bytes a packet shows: those of its payload area from `head` up to `tail`. -/
def visible {α : Type} (area : List α) (head tail : Nat) : List α := (area.drop head).take (tail - head)

end Spec.PacketWindow
