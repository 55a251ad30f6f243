import Verif.Spec.FlowCrypt
import Verif.Proof.Tac
import Verif.Proof.Bytes
import Verif.Proof.FaMsg
import Verif.Props.Crc32
import Verif.Props.Rdrbuff
import Verif.Props.Frct

namespace Ouro.Crypt

open Ouro.Rdrbuff (Sdb SZ wrap duLen sub headAlloc tailAlloc headRelease tailRelease sub_eq wrap_eq)
open Ouro.FaMsg (beBytes)
open Ouro.FlowIo (crcBytes)

theorem crcBytes_eq (bs : List Byte) : crcBytes bs = check bs := by
  unfold crcBytes check; rw [Crc32.C06_crc32_is_standard]

@[simp] theorem length_check (bs : List Byte) : (check bs).length = 4 := by simp [check]

/-- The packet with these bytes. -/
def B (s : Sdb) (pre d post : List Byte) : Buf :=
  ⟨{ s with size := pre.length + d.length + post.length, duHead := pre.length, duTail := pre.length + d.length }, pre ++ (d ++ post)⟩

def Small (pre d post : List Byte) : Prop := pre.length + d.length + post.length < 2 ^ 62

theorem Holds.eq {b : Buf} {d : List Byte} {h t : Nat} (H : Holds b d h t) : ∃ pre post, b = B b.sdb pre d post ∧ pre.length = h ∧
    post.length = t ∧ Small pre d post := by
  obtain ⟨pre, post, h1, h2, h3, h4, h5, h6, h7⟩ := H
  refine ⟨pre, post, ?_, h2, h3, ?_⟩
  · obtain ⟨s, m⟩ := b
    obtain ⟨a1, a2, a3, a4, a5, a6⟩ := s
    simp only at h1 h4 h5 h6
    subst h1 h2 h3
    simp [B, h4, h5, h6]
  · unfold Small; omega

theorem holds_B {s : Sdb} {pre d post : List Byte} (h : Small pre d post) : Holds (B s pre d post) d pre.length post.length :=
  ⟨pre, post, rfl, rfl, rfl, rfl, rfl, rfl, h⟩

section
variable {s : Sdb} {pre d post x y : List Byte}

theorem duLen_B (h : Small pre d post) : duLen (B s pre d post).sdb = d.length := by
  unfold Small at h
  unfold duLen B; dsimp only
  rw [sub_eq (by omega) (by unfold SZ; omega)]; omega

theorem sub_B (h : Small pre d post) : sub (B s pre d post).sdb.duTail (B s pre d post).sdb.duHead = d.length := duLen_B h

theorem data_B : slice (B s pre d post).mem (B s pre d post).sdb.duHead d.length = .ok d := slice_mid rfl rfl

theorem headAlloc_none (h : pre.length < n) : headAlloc (B s pre d post).sdb n = ((B s pre d post).sdb, none) := by
  unfold headAlloc; rw [if_pos (by simpa [B] using h)]

theorem headAlloc_B (hx : x.length = n) : headAlloc (B s (pre ++ x) d post).sdb n = ((B s pre (x ++ d) post).sdb, some pre.length) := by
  unfold headAlloc
  rw [if_neg (by simp [B]; omega)]
  simp [B, ← hx]
  omega

theorem tailAlloc_none (h : Small pre d post) (hn : n < 2 ^ 62) (hp : post.length ≤ n) :
    tailAlloc (B s pre d post).sdb n = ((B s pre d post).sdb, none) := by
  unfold Small at h
  unfold tailAlloc B; dsimp only
  rw [wrap_eq (by unfold SZ; omega), if_pos (by omega)]

theorem tailAlloc_B (h : Small pre d (y ++ post)) (hy : y.length = n) (hp : 0 < post.length) :
    tailAlloc (B s pre d (y ++ post)).sdb n = ((B s pre (d ++ y) post).sdb, some (pre.length + d.length)) := by
  unfold Small at h
  rw [List.length_append] at h
  unfold tailAlloc B; dsimp only
  rw [wrap_eq (by unfold SZ; omega), if_neg (by rw [List.length_append]; omega)]
  simp [← hy]
  omega

theorem headRelease_B (h : Small pre (x ++ d) post) (hx : x.length = n) :
    headRelease (B s pre (x ++ d) post).sdb n = .ok ((B s (pre ++ x) d post).sdb, pre.length) := by
  unfold headRelease
  rw [sub_B h, if_neg (by rw [List.length_append]; omega)]
  unfold Small at h
  rw [List.length_append] at h
  rw [wrap_eq (by simp only [B, SZ]; omega)]
  simp [B, ← hx]
  omega

theorem tailRelease_B (h : Small pre (d ++ y) post) (hy : y.length = n) :
    tailRelease (B s pre (d ++ y) post).sdb n = .ok ((B s pre d (y ++ post)).sdb, pre.length + d.length) := by
  unfold tailRelease
  rw [sub_B h, if_neg (by rw [List.length_append]; omega)]
  unfold Small at h
  rw [List.length_append] at h
  rw [sub_eq (by simp only [B]; rw [List.length_append]; omega) (by simp only [B, SZ]; rw [List.length_append]; omega)]
  simp [B, ← hy]
  omega

theorem tailRelease_ub (h : Small pre d post) (hy : d.length < n) : tailRelease (B s pre d post).sdb n = .ub := by
  unfold tailRelease
  rw [sub_B h, if_pos (by omega)]

end

/-! ## Encryption -/

theorem split_last {pre : List Byte} {n : Nat} (h : n ≤ pre.length) : ∃ p x, pre = p ++ x ∧ x.length = n :=
  ⟨pre.take (pre.length - n), pre.drop (pre.length - n), by simp, by simp; omega⟩

theorem split_first {post : List Byte} {n : Nat} (h : n ≤ post.length) : ∃ x p, post = x ++ p ∧ x.length = n :=
  ⟨post.take n, post.drop n, by simp, by simp; omega⟩

theorem encrypt_ok {c : Cipher} (S : c.Sound) {k iv : List Byte} (hiv : iv.length = 16) {s : Sdb} {pre x d y post : List Byte}
    (hs : Small (pre ++ x) d (y ++ post)) (hx : x.length = 16) (hd : d ≠ []) (hy : d.length + y.length = (c.enc k iv d).length)
    (hp : 0 < post.length) :
    opensslEncrypt c k iv true (B s (pre ++ x) d (y ++ post)) = .ok (B s pre (iv ++ c.enc k iv d) post, 0) := by
  have hl := S.len k iv d
  have hd' : d.length ≠ 0 := by simpa using hd
  have hsm := hs
  unfold Small at hsm
  simp only [List.length_append] at hsm
  unfold opensslEncrypt
  rw [sub_B hs, if_neg hd']
  simp only [Bool.not_true, Bool.false_eq_true, if_false, data_B, Outcome.bind_ok]
  rw [headAlloc_B (show x.length = IVSZ from hx)]
  dsimp only
  rw [sub_eq (by omega) (by unfold SZ; omega), tailAlloc_B (by unfold Small; simp only [List.length_append]; omega) (by omega) hp]
  dsimp only
  have e1 : patch (B s (pre ++ x) d (y ++ post)).mem pre.length iv = .ok (pre ++ (iv ++ (d ++ (y ++ post)))) := by
    have : (B s (pre ++ x) d (y ++ post)).mem = pre ++ (x ++ (d ++ (y ++ post))) := by simp [B]
    rw [this]; exact patch_mid rfl (by omega)
  rw [e1]
  simp only [Outcome.bind_ok]
  have e2 : patch (pre ++ (iv ++ (d ++ (y ++ post)))) (B s (pre ++ x) d (y ++ post)).sdb.duHead (c.enc k iv d) =
      .ok ((pre ++ iv) ++ (c.enc k iv d ++ post)) := by
    have : pre ++ (iv ++ (d ++ (y ++ post))) = (pre ++ iv) ++ ((d ++ y) ++ post) := by simp
    rw [this]; exact patch_mid (by simp [B]; omega) (by simp; omega)
  rw [e2]
  simp only [Outcome.bind_ok, B, List.length_append, List.append_assoc]
  congr 3
  simp only [Sdb.mk.injEq]
  refine ⟨by omega, trivial, trivial, by omega, trivial, trivial⟩

theorem encrypt_no_tail {c : Cipher} (S : c.Sound) {k iv : List Byte} {s : Sdb} {pre x d post : List Byte}
    (hs : Small (pre ++ x) d post) (hx : x.length = 16) (hd : d ≠ []) (hp : d.length + post.length ≤ (c.enc k iv d).length) :
    opensslEncrypt c k iv true (B s (pre ++ x) d post) = .ok (B s (pre ++ x) d post, -ECRYPT) := by
  have hl := S.len k iv d
  have hd' : d.length ≠ 0 := by simpa using hd
  have hsm := hs
  unfold Small at hsm
  simp only [List.length_append] at hsm
  have hs' : Small pre (x ++ d) post := by unfold Small; simp only [List.length_append]; omega
  unfold opensslEncrypt
  rw [sub_B hs, if_neg hd']
  simp only [Bool.not_true, Bool.false_eq_true, if_false, data_B, Outcome.bind_ok]
  rw [headAlloc_B (show x.length = IVSZ from hx)]
  dsimp only
  rw [sub_eq (by omega) (by unfold SZ; omega), tailAlloc_none hs' (by omega) (by omega)]
  dsimp only
  rw [headRelease_B hs' (show x.length = IVSZ from hx)]
  simp [B]

theorem encrypt_no_head {c : Cipher} {k iv : List Byte} {s : Sdb} {pre d post : List Byte}
    (hs : Small pre d post) (hx : pre.length < 16) (hd : d ≠ []) :
    opensslEncrypt c k iv true (B s pre d post) = .ok (B s pre d post, -ECRYPT) := by
  have hd' : d.length ≠ 0 := by simpa using hd
  unfold opensslEncrypt
  rw [sub_B hs, if_neg hd']
  simp only [Bool.not_true, Bool.false_eq_true, if_false, data_B, Outcome.bind_ok]
  rw [headAlloc_none (show pre.length < IVSZ from hx)]

theorem encrypt_evp {c : Cipher} {k iv : List Byte} {s : Sdb} {pre d post : List Byte} (hs : Small pre d post) (hd : d ≠ []) :
    opensslEncrypt c k iv false (B s pre d post) = .ok (B s pre d post, -ECRYPT) := by
  unfold opensslEncrypt
  rw [sub_B hs, if_neg (by simpa using hd)]
  simp

/-! ## Decryption -/

theorem decrypt_ok {c : Cipher} {k : List Byte} {s : Sdb} {pre iv t p post : List Byte} (hs : Small pre (iv ++ t) post)
    (hiv : iv.length = 16) (hd : c.dec k iv t = some p) (hp : p.length ≤ t.length) :
    ∃ post', opensslDecrypt c k true (B s pre (iv ++ t) post) = .ok (B s (pre ++ iv) p post', 0) ∧
      p.length + post'.length = t.length + post.length := by
  have hsm := hs
  unfold Small at hsm
  simp only [List.length_append] at hsm
  have hs' : Small (pre ++ iv) t post := by unfold Small; simp only [List.length_append]; omega
  obtain ⟨t1, t2, rfl, ht⟩ := split_first hp
  refine ⟨t2 ++ post, ?_, by simp only [List.length_append]; omega⟩
  unfold opensslDecrypt
  rw [duLen_B hs, if_neg (by unfold IVSZ; simp only [List.length_append]; omega), headRelease_B hs (show iv.length = IVSZ from hiv)]
  simp only [Outcome.bind_ok]
  have e0 : slice (B s pre (iv ++ (t1 ++ t2)) post).mem pre.length IVSZ = .ok iv := by
    have : (B s pre (iv ++ (t1 ++ t2)) post).mem = pre ++ (iv ++ ((t1 ++ t2) ++ post)) := by simp [B]
    rw [this]; exact slice_mid rfl hiv
  rw [e0]
  simp only [Outcome.bind_ok, Bool.not_true, Bool.false_eq_true, if_false]
  rw [sub_B hs']
  have e1 : slice (B s pre (iv ++ (t1 ++ t2)) post).mem (B s (pre ++ iv) (t1 ++ t2) post).sdb.duHead (t1 ++ t2).length = .ok (t1 ++ t2) := by
    have : (B s pre (iv ++ (t1 ++ t2)) post).mem = (B s (pre ++ iv) (t1 ++ t2) post).mem := by simp [B]
    rw [this]; exact data_B
  rw [e1]
  simp only [Outcome.bind_ok, hd]
  rw [sub_eq (by simp; omega) (by unfold SZ; omega), tailRelease_B hs' (by simp only [List.length_append]; omega)]
  simp only [Outcome.bind_ok]
  have e2 : patch (B s pre (iv ++ (t1 ++ t2)) post).mem (B s (pre ++ iv) (t1 ++ t2) post).sdb.duHead p = .ok ((pre ++ iv) ++ (p ++ (t2 ++ post))) := by
    have : (B s pre (iv ++ (t1 ++ t2)) post).mem = (pre ++ iv) ++ (t1 ++ (t2 ++ post)) := by simp [B]
    rw [this]; exact patch_mid (by simp [B]) (by omega)
  rw [e2]
  simp only [Outcome.bind_ok, B, List.length_append, ht]

theorem decrypt_bad {c : Cipher} {k : List Byte} {s : Sdb} {pre iv t post : List Byte} (hs : Small pre (iv ++ t) post)
    (hiv : iv.length = 16) (hd : c.dec k iv t = none) :
    ∃ b, opensslDecrypt c k true (B s pre (iv ++ t) post) = .ok (b, -ECRYPT) := by
  have hsm := hs
  unfold Small at hsm
  simp only [List.length_append] at hsm
  have hs' : Small (pre ++ iv) t post := by unfold Small; simp only [List.length_append]; omega
  unfold opensslDecrypt
  rw [duLen_B hs, if_neg (by unfold IVSZ; simp only [List.length_append]; omega), headRelease_B hs (show iv.length = IVSZ from hiv)]
  simp only [Outcome.bind_ok]
  have e0 : slice (B s pre (iv ++ t) post).mem pre.length IVSZ = .ok iv := by
    have : (B s pre (iv ++ t) post).mem = pre ++ (iv ++ (t ++ post)) := by simp [B]
    rw [this]; exact slice_mid rfl hiv
  rw [e0]
  simp only [Outcome.bind_ok, Bool.not_true, Bool.false_eq_true, if_false]
  rw [sub_B hs']
  have e1 : slice (B s pre (iv ++ t) post).mem (B s (pre ++ iv) t post).sdb.duHead t.length = .ok t := by
    have : (B s pre (iv ++ t) post).mem = (B s (pre ++ iv) t post).mem := by simp [B]
    rw [this]; exact data_B
  rw [e1]
  simp only [Outcome.bind_ok, hd]
  exact ⟨_, rfl⟩

theorem decrypt_short {c : Cipher} {k : List Byte} {e : Bool} {s : Sdb} {pre d post : List Byte} (hs : Small pre d post) (hd : d.length < 16) :
    opensslDecrypt c k e (B s pre d post) = .ok (B s pre d post, -ECRYPT) := by
  unfold opensslDecrypt
  rw [duLen_B hs, if_pos (show d.length < IVSZ from hd)]

/-! ## CRC -/

theorem addCrc_ok {s : Sdb} {pre d y post : List Byte} (hs : Small pre d (y ++ post)) (hy : y.length = 4) (hp : 0 < post.length) :
    addCrc (B s pre d (y ++ post)) = .ok (B s pre (d ++ check d) post, 0) := by
  have hsm := hs
  unfold Small at hsm
  simp only [List.length_append] at hsm
  unfold addCrc
  rw [tailAlloc_B hs (show y.length = CRCLEN from hy) hp]
  dsimp only
  have e0 : sub (pre.length + d.length) (B s pre d (y ++ post)).sdb.duHead = d.length := sub_B hs
  rw [e0, data_B]
  simp only [Outcome.bind_ok, crcBytes_eq]
  have e2 : patch (B s pre d (y ++ post)).mem (pre.length + d.length) (check d) = .ok ((pre ++ d) ++ (check d ++ post)) := by
    have : (B s pre d (y ++ post)).mem = (pre ++ d) ++ (y ++ post) := by simp [B]
    rw [this]; exact patch_mid (by simp) (by simp [hy])
  rw [e2]
  simp [B, hy]

theorem addCrc_full {s : Sdb} {pre d post : List Byte} (hs : Small pre d post) (hp : post.length ≤ 4) :
    addCrc (B s pre d post) = .ok (B s pre d post, -1) := by
  unfold addCrc
  rw [tailAlloc_none hs (by unfold CRCLEN; omega) (show post.length ≤ CRCLEN from hp)]

theorem chkCrc_B {s : Sdb} {pre d y post : List Byte} (hs : Small pre (d ++ y) post) (hy : y.length = 4) :
    chkCrc (B s pre (d ++ y) post) = .ok (B s pre d (y ++ post), check d != y) := by
  have hsm := hs
  unfold Small at hsm
  simp only [List.length_append] at hsm
  have hs' : Small pre d (y ++ post) := by unfold Small; simp only [List.length_append]; omega
  unfold chkCrc
  rw [tailRelease_B hs (show y.length = CRCLEN from hy)]
  simp only [Outcome.bind_ok]
  have e0 : sub (pre.length + d.length) (B s pre (d ++ y) post).sdb.duHead = d.length := sub_B (s := s) hs'
  have em : (B s pre (d ++ y) post).mem = (B s pre d (y ++ post)).mem := by simp [B]
  have e1 : slice (B s pre (d ++ y) post).mem (B s pre (d ++ y) post).sdb.duHead d.length = .ok d := by
    rw [em]; exact data_B
  rw [e0, e1]
  simp only [Outcome.bind_ok, crcBytes_eq]
  have e2 : slice (B s pre (d ++ y) post).mem (pre.length + d.length) CRCLEN = .ok y := by
    have : (B s pre (d ++ y) post).mem = (pre ++ d) ++ (y ++ post) := by simp [B]
    rw [this]; exact slice_mid (by simp) hy
  rw [e2]
  simp only [Outcome.bind_ok]
  rw [em]

/-! ## FRCT -/

theorem frctiSnd_ok {hdr : List Byte} {s : Sdb} {pre x d post : List Byte} (hs : Small (pre ++ x) d post) (hh : hdr.length = 12)
    (hx : x.length = 12) (hd : d ≠ []) :
    frctiSnd hdr (B s (pre ++ x) d post) = .ok (B s pre (hdr ++ d) post, some ⟨pre.length, 12 + d.length⟩, 0) := by
  have hsm := hs
  unfold Small at hsm
  simp only [List.length_append] at hsm
  unfold frctiSnd
  rw [duLen_B hs, if_neg (by simpa using hd), headAlloc_B (show x.length = PCILEN from hx)]
  dsimp only
  have e : patch (B s (pre ++ x) d post).mem pre.length hdr = .ok (pre ++ (hdr ++ (d ++ post))) := by
    have : (B s (pre ++ x) d post).mem = pre ++ (x ++ (d ++ post)) := by simp [B]
    rw [this]; exact patch_mid rfl (by omega)
  rw [e, duLen_B (by unfold Small; simp only [List.length_append]; omega)]
  simp [B, hx, hh]

/-! ## The whole path -/

/-- The sealed text without the initialisation vector. -/
def text (c : Cipher) (f : Fl) (iv body : List Byte) : List Byte :=
  match f.key with
  | none => body
  | some k => c.enc k iv body

theorem enc_len {c : Cipher} (S : c.Sound) (k iv d : List Byte) : d.length < (c.enc k iv d).length ∧ (c.enc k iv d).length ≤ d.length + 16 := by
  have := S.len k iv d; omega

theorem length_text {c : Cipher} (S : c.Sound) (f : Fl) (iv body : List Byte) : body.length ≤ (text c f iv body).length := by
  unfold text; split
  · rfl
  · exact (enc_len S ..).1.le

theorem crypt_ok {c : Cipher} (S : c.Sound) (f : Fl) {iv : List Byte} (hiv : iv.length = 16) {s : Sdb} {pre body post : List Byte}
    (hs : Small pre body post) (hb : body ≠ []) (hp : 16 ≤ pre.length) (ht : 17 ≤ post.length) :
    ∃ pre' post', encrypt c f iv true (B s pre body post) = .ok (B s pre' (sealed c f iv body) post', 0) ∧
      Small pre' (sealed c f iv body) post' ∧ post.length ≤ post'.length + 16 ∧
      pre'.length + (sealed c f iv body).length + post'.length = pre.length + body.length + post.length ∧
      ∃ q, pre' ++ sealed c f iv body = q ++ text c f iv body ∧ q.length = pre.length := by
  unfold encrypt sealed text
  cases f.key with
  | none => exact ⟨pre, post, rfl, hs, by omega, rfl, pre, rfl, rfl⟩
  | some k =>
    dsimp only
    have hl := enc_len S k iv body
    obtain ⟨p, x, rfl, hx⟩ := split_last hp
    obtain ⟨y, q, rfl, hy⟩ := split_first (n := (c.enc k iv body).length - body.length) (post := post) (by omega)
    simp only [List.length_append] at ht
    refine ⟨p, q, encrypt_ok S hiv hs hx hb (by omega) (by omega), ?_, ?_, ?_, p ++ iv, by simp, by simp; omega⟩
    · unfold Small at *; simp only [List.length_append] at *; omega
    · simp only [List.length_append]; omega
    · simp only [List.length_append]; omega

theorem frct_ok (hdr : Option (List Byte)) (hh : ∀ h, hdr = some h → h.length = 12) {s : Sdb} {pre d post : List Byte} (hs : Small pre d post)
    (hd : d ≠ []) (hp : 12 ≤ pre.length) :
    ∃ pre', frct hdr (B s pre d post) = .ok (B s pre' (contents hdr d) post, hdr.map (fun _ => ⟨pre'.length, (contents hdr d).length⟩), 0) ∧
      Small pre' (contents hdr d) post ∧ pre.length ≤ pre'.length + 12 ∧
      pre'.length + (contents hdr d).length = pre.length + d.length := by
  unfold frct contents
  cases hdr with
  | none => exact ⟨pre, rfl, hs, by omega, rfl⟩
  | some h =>
    obtain ⟨p, x, rfl, hx⟩ := split_last hp
    have := hh h rfl
    refine ⟨p, ?_, ?_, ?_, ?_⟩
    · have e := frctiSnd_ok (s := s) hs this hx hd
      simp only [Option.getD, Option.map, List.length_append, this]
      exact e
    · unfold Small at *; simp only [Option.getD, List.length_append] at *; omega
    · simp only [List.length_append]; omega
    · simp only [Option.getD, List.length_append]; omega

theorem tx_ok {c : Cipher} (S : c.Sound) (f : Fl) {hdr : Option (List Byte)} (hh : ∀ h, hdr = some h → h.length = 12) {iv : List Byte}
    (hiv : iv.length = 16) {s : Sdb} {pre d post : List Byte} (hs : Small pre d post) (hd : d ≠ []) (hp : 28 ≤ pre.length)
    (ht : 21 ≤ post.length) :
    ∃ pre' post' q r, tx c f hdr iv true (B s pre d post) =
        .ok (B s pre' (onWire c f iv (contents hdr d)) post', hdr.map (fun _ => ⟨q.length, (contents hdr d).length⟩), 0) ∧
      Small pre' (onWire c f iv (contents hdr d)) post' ∧
      (B s pre' (onWire c f iv (contents hdr d)) post').mem = q ++ (text c f iv (contents hdr d) ++ r) := by
  have hd' : 0 < d.length := by have : d.length ≠ 0 := by simpa using hd; 
                                omega
  obtain ⟨p1, e1, s1, a1, b1⟩ := frct_ok hdr hh (s := s) hs hd (by omega)
  have hc : contents hdr d ≠ [] := by unfold contents; simp [hd]
  obtain ⟨p2, t2, e2, s2, a2, b2, q, hq, ql⟩ := crypt_ok S f hiv (s := s) s1 hc (by omega) (by omega)
  unfold tx
  rw [duLen_B hs, if_pos hd', e1]
  simp only [Outcome.bind_ok, lt_self_iff_false, if_false, e2]
  by_cases hcrc : f.crc = true
  · obtain ⟨y, t3, rfl, hy⟩ := split_first (n := 4) (post := t2) (by omega)
    simp only [List.length_append] at a2 b2
    simp only [if_pos hcrc, addCrc_ok s2 hy (by omega), Outcome.bind_ok]
    refine ⟨p2, t3, q, check (sealed c f iv (contents hdr d)) ++ t3, ?_, ?_, ?_⟩
    · simp only [ne_eq, not_true_eq_false, if_false, onWire, if_pos hcrc, ql]
    · unfold Small at *; simp only [onWire, if_pos hcrc, List.length_append, length_check] at *; omega
    · simp only [B, onWire, if_pos hcrc]
      rw [← List.append_assoc, ← List.append_assoc, hq]; simp
  · refine ⟨p2, t2, q, t2, ?_, ?_, ?_⟩
    · simp only [if_neg hcrc, onWire, ql]
    · simpa only [onWire, if_neg hcrc] using s2
    · simp only [B, onWire, if_neg hcrc]
      rw [← List.append_assoc, hq]; simp

/-- The receiver takes exactly what `accepted` says. -/
theorem rx_char {c : Cipher} (S : c.Sound) (f : Fl) {s : Sdb} {pre w post : List Byte} (hs : Small pre w post)
    (hw : f.crc = true → w = [] ∨ 4 ≤ w.length) :
    match accepted c f w with
    | none => rx c f true (B s pre w post) = .ok none
    | some p => ∃ pre' post', rx c f true (B s pre w post) = .ok (some (B s pre' p post')) ∧ Small pre' p post' := by
  have dec : ∀ {pre w post : List Byte}, Small pre w post → match opened c f w with
      | none => ∃ b, decrypt c f true (B s pre w post) = .ok (b, -ECRYPT)
      | some p => ∃ pre' post', decrypt c f true (B s pre w post) = .ok (B s pre' p post', 0) ∧ Small pre' p post' := by
    intro pre w post hs
    unfold opened decrypt
    cases f.key with
    | none => exact ⟨pre, post, rfl, hs⟩
    | some k =>
      dsimp only
      by_cases hl : w.length < 16
      · rw [if_pos hl]; exact ⟨_, decrypt_short hs hl⟩
      · rw [if_neg hl]
        obtain ⟨iv, t, rfl, hi⟩ := split_first (n := 16) (post := w) (by omega)
        rw [List.take_left' hi, List.drop_left' hi]
        cases hd : c.dec k iv t with
        | none => exact decrypt_bad hs hi hd
        | some p =>
          have hl := (S.blocks k iv t p hd).2
          obtain ⟨post', e, h⟩ := decrypt_ok hs hi hd hl.le (s := s)
          refine ⟨_, _, e, ?_⟩
          unfold Small at *; simp only [List.length_append] at *; omega
  by_cases hn : w = []
  · subst hn
    simp only [accepted, if_true]
    unfold rx
    rw [duLen_B hs, if_pos List.length_nil]
  · have hn' : w.length ≠ 0 := by simpa using hn
    by_cases hcrc : f.crc = true
    · have h4 : 4 ≤ w.length := (hw hcrc).resolve_left hn
      obtain ⟨m, x, rfl, hx⟩ := split_last h4
      have e1 : (m ++ x).length - 4 = m.length := by simp [hx]
      have ea : accepted c f (m ++ x) = if x = check m then opened c f m else none := by
        unfold accepted
        rw [if_neg hn, if_pos hcrc, e1, List.take_left, List.drop_left]
      have er : rx c f true (B s pre (m ++ x) post) = (if (check m != x) = true then .ok none else do
          let y ← decrypt c f true (B s pre m (x ++ post))
          if y.2 < 0 then .ok none else .ok (some y.1)) := by
        unfold rx
        rw [duLen_B hs, if_neg hn']
        simp only [if_pos hcrc, chkCrc_B hs hx, Outcome.bind_ok]
      rw [ea, er]
      by_cases hx' : x = check m
      · have hb : (check m != x) = false := by simp [hx']
        rw [if_pos hx', hb, if_neg (by simp)]
        have hs' : Small pre m (x ++ post) := by unfold Small at *; simp only [List.length_append] at *; omega
        have := dec hs'
        cases ho : opened c f m with
        | none => rw [ho] at this; obtain ⟨b, e⟩ := this; simp [e, ECRYPT]
        | some p => rw [ho] at this; obtain ⟨p1, p2, e, h⟩ := this; exact ⟨p1, p2, by simp [e], h⟩
      · have hb : (check m != x) = true := by simpa using fun h => hx' h.symm
        rw [if_neg hx', hb, if_pos rfl]
    · have ea : accepted c f w = opened c f w := by
        unfold accepted
        rw [if_neg hn, if_neg hcrc]
      have er : rx c f true (B s pre w post) = (do
          let y ← decrypt c f true (B s pre w post)
          if y.2 < 0 then .ok none else .ok (some y.1)) := by
        unfold rx
        rw [duLen_B hs, if_neg hn']
        simp only [if_neg hcrc, Outcome.bind_ok, Bool.false_eq_true, if_false]
      rw [ea, er]
      have := dec hs
      cases ho : opened c f w with
      | none => rw [ho] at this; obtain ⟨b, e⟩ := this; simp [e, ECRYPT]
      | some p => rw [ho] at this; obtain ⟨p1, p2, e, h⟩ := this; exact ⟨p1, p2, by simp [e], h⟩

theorem opened_sealed {c : Cipher} (S : c.Sound) (f : Fl) {iv : List Byte} (hiv : iv.length = 16) (body : List Byte) :
    opened c f (sealed c f iv body) = some body := by
  unfold opened sealed
  cases f.key with
  | none => rfl
  | some k =>
    dsimp only
    rw [if_neg (by simp only [List.length_append]; omega), List.take_left' hiv, List.drop_left' hiv]
    exact S.inv ..

theorem sealed_ne {c : Cipher} (f : Fl) {iv : List Byte} (hiv : iv.length = 16) {body : List Byte} (hb : body ≠ []) :
    sealed c f iv body ≠ [] := by
  unfold sealed
  cases f.key with
  | none => exact hb
  | some k =>
    intro h
    have := congrArg List.length h
    simp only [List.length_append, List.length_nil] at this; omega

theorem accepted_onWire {c : Cipher} (S : c.Sound) (f : Fl) {iv : List Byte} (hiv : iv.length = 16) {body : List Byte} (hb : body ≠ []) :
    accepted c f (onWire c f iv body) = some body := by
  have hn := sealed_ne (c := c) f hiv hb
  unfold accepted onWire
  by_cases hcrc : f.crc = true
  · simp only [if_pos hcrc]
    rw [if_neg (by simp [hn])]
    have e : (sealed c f iv body ++ check (sealed c f iv body)).length - 4 = (sealed c f iv body).length := by simp
    rw [e, List.take_left, List.drop_left, if_pos rfl]
    exact opened_sealed S f hiv body
  · simp only [if_neg hcrc]
    rw [if_neg hn]
    exact opened_sealed S f hiv body

/-- Whatever a flow with encryption or a CRC accepts is shorter than what was on the wire. -/
theorem accepted_shorter {c : Cipher} (S : c.Sound) {f : Fl} (hf : f.crc = true ∨ f.key.isSome) {w p : List Byte} (h : accepted c f w = some p) :
    p.length < w.length := by
  have ho : ∀ {w p : List Byte}, opened c f w = some p → p.length ≤ w.length ∧ (f.key.isSome → p.length < w.length) := by
    intro w p h
    unfold opened at h
    cases hk : f.key with
    | none => rw [hk] at h; simp at h; subst h; simp
    | some k =>
      rw [hk] at h; dsimp only at h
      split at h
      · cases h
      · have := (S.blocks _ _ _ _ h).2
        rw [List.length_drop] at this
        exact ⟨by omega, fun _ => by omega⟩
  unfold accepted at h
  split at h
  · cases h
  · rename_i hw
    have : w.length ≠ 0 := by simpa using hw
    split at h
    · split at h
      · have := (ho h).1
        rw [List.length_take] at this; omega
      · cases h
    · rename_i hc
      exact (ho h).2 (hf.resolve_left hc)

end Ouro.Crypt
