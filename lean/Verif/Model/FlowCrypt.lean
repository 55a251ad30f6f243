import Verif.Model.DuBuff
import Verif.Model.FlowIo
import Verif.Model.FrctNet

/-!
# From `flow_write` to the wire and back: FRCT header, encryption and CRC

`src/lib/crypt.c:213-341, 405-433`, the packet path of `src/lib/dev.c:1155-1230, 1296-1339`, what `src/lib/frct.c:235-280, 703-762` does to
the packet, and the packet `src/lib/timerwheel.c:227-252` sends again.

A packet is its header `Rdrbuff.Sdb` and the bytes behind it (head space, data, tail space). AES-256-CBC with PKCS#7 padding is OpenSSL's, not
the repository's: it is the parameter `Cipher`, and `Verif/Spec/FlowCrypt.lean` says what is assumed of it. Simplifications: lengths fit in the
`int` of crypt.c:223-226 (packets are at most a few blocks of the pool); the build has OpenSSL (`HAVE_OPENSSL`); rings, locks and sets are left
out (FlowIo, FlowSet). `RXM_BUFFER_ON_HEAP` is off as in src/lib/CMakeLists.txt:215 except in `sentAgainHeap`.
-/

namespace Ouro.Crypt

open Ouro.Rdrbuff (Sdb duLen sub headAlloc tailAlloc headRelease tailRelease)
open Ouro.FaMsg (beBytes)
open Ouro.FlowIo (crcBytes)

/-- `ECRYPT`, include/ouroboros/errno.h:35. -/ def ECRYPT : Int := 1007
/-- `ENOMEM` (errno.h), src/lib/dev.c:1229. -/ def ENOMEM : Int := 12
/-- `IVSZ`, src/lib/crypt.c:42. -/ def IVSZ : Nat := 16
/-- `CRCLEN`, src/lib/dev.c:76. -/ def CRCLEN : Nat := 4
/-- `FRCT_PCILEN`, src/lib/frct.c:29, 91-99. -/ def PCILEN : Nat := 12

/-- `EVP_aes_256_cbc` as used at src/lib/crypt.c:241-252 (`enc key iv text`) and 315-327 (`dec key iv text`, `none` = a call did not return 1). -/
structure Cipher where
  enc : List Byte → List Byte → List Byte → List Byte
  dec : List Byte → List Byte → List Byte → Option (List Byte)

/-- A packet: `struct shm_du_buff` and the bytes behind it, src/lib/shm_rdrbuff.c:67-76. -/
structure Buf where
  sdb : Sdb
  mem : List Byte
  deriving Repr, DecidableEq

/-- The bytes between `shm_du_buff_head` and `shm_du_buff_tail`, src/lib/shm_rdrbuff.c:513-532. -/
def Buf.data (b : Buf) : Outcome (List Byte) := slice b.mem b.sdb.duHead (duLen b.sdb)

/-- What a flow does to packets: `info.qs.ber == 0` (src/lib/dev.c:1206, 1302) and `crypt.flags` with `crypt.key` (481-486). -/
structure Fl where
  crc : Bool
  key : Option (List Byte)
  deriving Repr, DecidableEq

/-- `openssl_encrypt`, src/lib/crypt.c:213-280; `iv` = what `random_buffer` returns (232), `evp` = lines 232-252 all succeed. -/
def opensslEncrypt (c : Cipher) (key iv : List Byte) (evp : Bool) (b : Buf) : Outcome (Buf × Int) :=
  if sub b.sdb.duTail b.sdb.duHead = 0 then .ub
  else if !evp then .ok (b, -ECRYPT)
  else do
    let inp ← slice b.mem b.sdb.duHead (sub b.sdb.duTail b.sdb.duHead)
    let out := c.enc key iv inp
    match headAlloc b.sdb IVSZ with
    | (_, none) => .ok (b, -ECRYPT)
    | (s1, some head) =>
      match tailAlloc s1 (sub out.length inp.length) with
      | (_, none) => do
        let r ← headRelease s1 IVSZ
        .ok ({ b with sdb := r.1 }, -ECRYPT)
      | (s2, some _) => do
        let m ← patch b.mem head iv
        let m ← patch m b.sdb.duHead out
        .ok (⟨s2, m⟩, 0)

/-- `openssl_decrypt`, src/lib/crypt.c:282-341; `evp` = lines 309-315 succeed. -/
def opensslDecrypt (c : Cipher) (key : List Byte) (evp : Bool) (b : Buf) : Outcome (Buf × Int) :=
  if duLen b.sdb < IVSZ then .ok (b, -ECRYPT)
  else do
    let r ← headRelease b.sdb IVSZ
    let iv ← slice b.mem r.2 IVSZ
    if !evp then .ok ({ b with sdb := r.1 }, -ECRYPT)
    else do
      let n := sub r.1.duTail r.1.duHead
      let inp ← slice b.mem r.1.duHead n
      match c.dec key iv inp with
      | none => .ok ({ b with sdb := r.1 }, -ECRYPT)
      | some out => do
        let t ← tailRelease r.1 (sub n out.length)
        let m ← patch b.mem r.1.duHead out
        .ok (⟨t.1, m⟩, 0)

/-- `crypt_encrypt`, src/lib/crypt.c:405-418. -/
def encrypt (c : Cipher) (f : Fl) (iv : List Byte) (evp : Bool) (b : Buf) : Outcome (Buf × Int) :=
  match f.key with
  | none => .ok (b, 0)
  | some key => opensslEncrypt c key iv evp b

/-- `crypt_decrypt`, src/lib/crypt.c:420-433. -/
def decrypt (c : Cipher) (f : Fl) (evp : Bool) (b : Buf) : Outcome (Buf × Int) :=
  match f.key with
  | none => .ok (b, 0)
  | some key => opensslDecrypt c key evp b

/-- `add_crc`, src/lib/dev.c:1166-1176. -/
def addCrc (b : Buf) : Outcome (Buf × Int) :=
  match tailAlloc b.sdb CRCLEN with
  | (_, none) => .ok (b, -1)
  | (s, some tail) => do
    let d ← slice b.mem b.sdb.duHead (sub tail b.sdb.duHead)
    let m ← patch b.mem tail (crcBytes d)
    .ok (⟨s, m⟩, 0)

/-- `chk_crc`, src/lib/dev.c:1155-1164. -/
def chkCrc (b : Buf) : Outcome (Buf × Bool) := do
  let r ← tailRelease b.sdb CRCLEN
  let d ← slice b.mem b.sdb.duHead (sub r.2 b.sdb.duHead)
  let x ← slice b.mem r.2 CRCLEN
  .ok ({ b with sdb := r.1 }, crcBytes d != x)

/-- Where `timerwheel_rxm` remembers the packet: `r->pkt` and `r->len`, src/lib/timerwheel.c:326, 336. -/
structure Rxm where
  off : Nat
  len : Nat
  deriving Repr, DecidableEq

/-- What `__frcti_snd` does to the packet, src/lib/frct.c:703-707, 716-752 and 761-762 (`timerwheel_rxm` looks at the packet after the header was
    put in front); `hdr` = the 12 bytes of the header. -/
def frctiSnd (hdr : List Byte) (b : Buf) : Outcome (Buf × Option Rxm × Int) :=
  if duLen b.sdb = 0 then .ub
  else
    match headAlloc b.sdb PCILEN with
    | (_, none) => .ok (b, none, -ENOMEM)
    | (s, some h) => do
      let m ← patch b.mem h hdr
      .ok (⟨s, m⟩, some ⟨h, duLen s⟩, 0)

/-- `frcti_snd`, src/lib/frct.c:482-483: nothing without FRCT. -/
def frct (hdr : Option (List Byte)) (b : Buf) : Outcome (Buf × Option Rxm × Int) :=
  match hdr with
  | none => .ok (b, none, 0)
  | some h => frctiSnd h b

/-- `flow_tx_sdb` up to the write to the ring, src/lib/dev.c:1199-1208, 1226-1229: the packet on its way, what the timer remembers, the result. -/
def tx (c : Cipher) (f : Fl) (hdr : Option (List Byte)) (iv : List Byte) (evp : Bool) (b : Buf) : Outcome (Buf × Option Rxm × Int) :=
  if 0 < duLen b.sdb then do
    let (b, x, r) ← frct hdr b
    if r < 0 then .ok (b, x, -ENOMEM)
    else do
      let (b, r) ← encrypt c f iv evp b
      if r < 0 then .ok (b, x, -ENOMEM)
      else if f.crc then do
        let (b, r) ← addCrc b
        if r ≠ 0 then .ok (b, x, -ENOMEM) else .ok (b, x, 0)
      else .ok (b, x, 0)
  else .ok (b, none, 0)

/-- `invalid_pkt`, src/lib/dev.c:1296-1309: `none` = invalid (removed at 1334). -/
def rx (c : Cipher) (f : Fl) (evp : Bool) (b : Buf) : Outcome (Option Buf) :=
  if duLen b.sdb = 0 then .ok none
  else do
    let (b, bad) ← if f.crc then chkCrc b else .ok (b, false)
    if bad then .ok none
    else do
      let (b, r) ← decrypt c f evp b
      if r < 0 then .ok none else .ok (some b)

/-- The packet `timerwheel_move` sends again, src/lib/timerwheel.c:227-245, `b` being the packet it remembered as it is now: `r->len` bytes from
    `r->pkt`, a new acknowledgement at bytes 8 to 11; no `crypt_encrypt`, no `add_crc`. -/
def sentAgain (b : Buf) (x : Rxm) (ackno : BitVec 32) : Outcome (List Byte) := do
  let p ← slice b.mem x.off x.len
  patch p 8 (beBytes 4 ackno.toNat)

/-- The same with `RXM_BUFFER_ON_HEAP`, src/lib/timerwheel.c:327-333, 234, 245: `b` is the packet when `timerwheel_rxm` copied it. -/
def sentAgainHeap (b : Buf) (ackno : BitVec 32) : Outcome (List Byte) := do
  let p ← b.data
  patch p 8 (beBytes 4 ackno.toNat)

/-- A packet just allocated with `d` in it, src/lib/shm_rdrbuff.c:349-351 and src/lib/dev.c:1288-1289 (head and tail space of 256 and 32 bytes; what
    they hold is unknown: `h`, `t`). -/
def fresh (h d t : List Byte) : Buf := ⟨⟨h.length + d.length + t.length, 1, h.length, h.length + d.length, 1, 0⟩, h ++ (d ++ t)⟩

/-- `__send_frct_pkt`, src/lib/frct.c:247-265: a control packet with the header `hdr`; encrypted, but without CRC. -/
def control (c : Cipher) (f : Fl) (hdr : List Byte) (h t iv : List Byte) (evp : Bool) : Outcome (Option Buf) := do
  let (b, r) ← encrypt c f iv evp (fresh h hdr t)
  if r < 0 then .ok none else .ok (some b)

end Ouro.Crypt
