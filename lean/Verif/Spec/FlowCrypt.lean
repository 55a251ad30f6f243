import Verif.Model.FlowCrypt
import Verif.Spec.Crc

/-!
# What protects a packet on the wire

The format of a packet on the wire and what a receiver may take from it, without buffers.
-/

namespace Ouro.Crypt

open Ouro.FaMsg (beBytes)

/-- What is assumed of AES-256-CBC with PKCS#7 padding: decrypting with the same key and initialisation vector gives the text back; 1 to 16 bytes
of padding make the text a whole number of 16-byte blocks; only whole blocks decrypt, and the padding is taken off. -/
structure Cipher.Sound (c : Cipher) : Prop where
  inv : ∀ k iv p, c.dec k iv (c.enc k iv p) = some p
  len : ∀ k iv p, (c.enc k iv p).length = (p.length / 16 + 1) * 16
  blocks : ∀ k iv t p, c.dec k iv t = some p → 16 ∣ t.length ∧ p.length < t.length

/-- The packet `b` holds exactly the bytes `d`, `h` bytes are free in front of them and `t` behind them, in a buffer of sane size. -/
def Holds (b : Buf) (d : List Byte) (h t : Nat) : Prop :=
  ∃ pre post, b.mem = pre ++ (d ++ post) ∧ pre.length = h ∧ post.length = t ∧ b.sdb.duHead = h ∧ b.sdb.duTail = h + d.length ∧
    b.sdb.size = h + d.length + t ∧ b.sdb.size < 2 ^ 62

/-- The CRC-32 of a byte string in network order. -/
def check (bs : List Byte) : List Byte := beBytes 4 (Spec.Crc.crc bs).toNat

/-- Encryption: the initialisation vector, then the encrypted text. -/
def sealed (c : Cipher) (f : Fl) (iv body : List Byte) : List Byte :=
  match f.key with
  | none => body
  | some k => iv ++ c.enc k iv body

/-- The bytes on the wire for the contents `body`: encrypted if the flow is, followed by a CRC if the flow has one. -/
def onWire (c : Cipher) (f : Fl) (iv body : List Byte) : List Byte :=
  if f.crc then sealed c f iv body ++ check (sealed c f iv body) else sealed c f iv body

/-- The contents of a sealed byte string. -/
def opened (c : Cipher) (f : Fl) (w : List Byte) : Option (List Byte) :=
  match f.key with
  | none => some w
  | some k => if w.length < 16 then none else c.dec k (w.take 16) (w.drop 16)

/-- What a receiver takes from the bytes `w` of the wire: nothing if they are empty, fail the CRC or do not decrypt. -/
def accepted (c : Cipher) (f : Fl) (w : List Byte) : Option (List Byte) :=
  if w = [] then none
  else if f.crc then
    if w.drop (w.length - 4) = check (w.take (w.length - 4)) then opened c f (w.take (w.length - 4)) else none
  else opened c f w

/-- The contents of a packet with FRCT header `hdr` (none on a raw flow). -/
def contents (hdr : Option (List Byte)) (d : List Byte) : List Byte := hdr.getD [] ++ d

/-- The same contents with another acknowledgement number. -/
def withAck (body : List Byte) (ackno : BitVec 32) : List Byte := body.take 8 ++ (beBytes 4 ackno.toNat ++ body.drop 12)

end Ouro.Crypt

namespace Ouro.Frct

/-- A flow only end `d` writes to, and on which no control packet arrives at `d` (as is the case with a CRC). -/
def OkOneWay (d : Bool) (s : Sys) : Op → Prop
  | .write e _ _ _ _ _ => e = d ∧ (s.dir d).sent.length + 1 < 2 ^ 31
  | .recv e k _ => e = d → ∀ q, (s.net (!d))[k]? = some q → q.pkt.data = true
  | _ => True

/-- The states such a flow can be in. Otherwise anything may happen: loss, duplication, reordering, any times. -/
inductive OneWay (d : Bool) (a r mpl : Nat) : Sys → Prop
  | init (now : Int) : OneWay d a r mpl (Sys.init a r mpl now)
  | step {s s' : Sys} {op : Op} : OneWay d a r mpl s → OkOneWay d s op → step s op = .ok s' → OneWay d a r mpl s'

end Ouro.Frct
