import Verif.Proof.UdpOnce

namespace Ouro.Udp

open Ouro.FaMsg

def check (ops : List Op) (p : Net → Bool) : Bool :=
  match run init ops with
  | .ok s => p s
  | .ub => false

theorem check_prop {ops : List Op} {p : Net → Bool} (h : check ops p = true) : ∃ s, run init ops = .ok s ∧ p s = true := by
  unfold check at h
  split at h
  · rename_i s hs; exact ⟨s, hs, h⟩
  · cases h

def fails (ops : List Op) : Bool :=
  match run init ops with
  | .ok _ => false
  | .ub => true

theorem fails_ub {ops : List Op} (h : fails ops = true) : run init ops = .ub := by
  unfold fails at h
  split at h
  · cases h
  · assumption

def q0 : Qos := ⟨0, 0, 0, 0, 0, 0, 0, 0, 0⟩
def h0 : List Byte := List.replicate 16 7
def j0 : Junk := ⟨0, 0, 0⟩

theorem q0_wf : q0.WF := by unfold q0 Qoscube.Spec.WF; decide

/-- A flow from 64 at host 1 to 70 at host 2. -/
def opening : List Op :=
  [.alloc 1 64 (some 2) h0 q0 [5] j0, .store 1 64, .recv 0, .mgmt 2 (some 70), .mgmtStore 2, .resp 2 70 0 [6] j0, .recv 1, .mgmt 1 none]

theorem sane_of {ops : List Op} (h : ∀ op ∈ ops, op.Sane) : Sane ops := h

theorem opening_sane : Sane opening := by
  intro op h
  simp only [opening, List.mem_cons, List.not_mem_nil, or_false] at h
  rcases h with rfl | rfl | rfl | rfl | rfl | rfl | rfl | rfl <;> trivial

example : check (opening ++ [.write 1 0 64 [1, 2], .send 1 0, .recv 2, .write 2 3 70 [3], .send 2 3, .recv 3]) (fun s => s.log.drop 4 ==
  [.wrote 1 64 [1, 2], .delivered 2 70 [1, 2], .wrote 2 70 [3], .delivered 1 64 [3]]) = true := by decide +kernel

theorem established (a b f g w : Nat) (ha : a ≠ 0) (hb : b ≠ 0) (hab : a ≠ b) (hf : 64 ≤ f ∧ f < 4096) (hg : 64 ≤ g ∧ g < 4096) (n : List Byte) (hn : n.length = 16) (q : Qos) (hq : q.WF)
    (d r p : List Byte) (hd : 46 + 16 + d.length ≤ 2048) (hr : 46 + r.length ≤ 2048) (hp : p.length ≤ 8980) (j j' : Junk) :
    ∃ s, run init [.alloc a f (some b) n q d j, .store a f, .recv 0, .mgmt b (some g), .mgmtStore b, .resp b g 0 r j', .recv 1, .mgmt a none,
        .write a w f p, .send a w, .recv 2] = .ok s ∧
      s.log = [.requested a f b n q d, .offered b g a f n q d 0, .responded b g r, .replied a f 0 r, .wrote a f p, .delivered b g (p.take 8976)] := by
  obtain ⟨f1, f2⟩ := hf
  obtain ⟨g1, g2⟩ := hg
  have hba : b ≠ a := Ne.symm hab
  have t1 : (request f q n d j).take MAX_PACKET = request f q n d j := List.take_of_length_le (by rw [length_request]; unfold MAX_PACKET; omega)
  have t2 : (reply f g 0 r j').take MAX_PACKET = reply f g 0 r j' := List.take_of_length_le (by rw [length_reply]; unfold MAX_PACKET; omega)
  have t3 : beVal (((packet g p).take MAX_PACKET).take 4) = g := by
    rw [List.take_take]; exact packet_head p (by omega)
  have t4 : ((packet g p).take MAX_PACKET).drop 4 = p.take 8976 := by
    rw [List.drop_take, packet, List.drop_left' (length_beBytes 4 g)]; rfl
  have e1 : ∀ h : Host, ∀ i, reader h b i ⟨a, b, request f q n d j⟩ = .ok ({ h with queue := ⟨i, a, request f q n d j⟩ :: h.queue }, []) := by
    intro h i
    unfold reader
    simp only [t1, request_head, length_request]
    rw [if_neg (by omega), if_pos trivial, if_neg (by unfold MSG_LEN; omega), if_neg (by unfold FRAME_BUF; omega)]
  have e2 : ∀ h : Host, ∀ i, reader h a i ⟨b, a, reply f g 0 r j'⟩ = .ok ({ h with queue := ⟨i, b, reply f g 0 r j'⟩ :: h.queue }, []) := by
    intro h i
    unfold reader
    simp only [t2, reply_head, length_reply]
    rw [if_neg (by omega), if_pos trivial, if_neg (by unfold MSG_LEN; omega), if_neg (by unfold FRAME_BUF; omega)]
  have e3 : ∀ h : Host, ∀ i, h.live g = true → reader h b i ⟨a, b, packet g p⟩ = .ok (h, [.delivered b g (p.take 8976)]) := by
    intro h i hl
    unfold reader
    simp only [t3, t4]
    rw [if_neg (by simp only [List.length_take, packet, List.length_append, length_beBytes]; unfold MAX_PACKET; omega), if_neg (by omega), if_neg (by unfold PROG_MAX_FLOWS; omega), if_pos hl]
  have p1 := parse_request (e := f) (by omega) hq hn d j
  have p2 := parse_reply (e := f) (g := g) (by omega) (by omega) (r := 0) (by decide) (by decide) r j'
  have ff : ∀ h : Host, h.live f = false → freeFd h f = true := fun h hl => freeFd_iff.2 ⟨f1, f2, hl⟩
  have fg : ∀ h : Host, h.live g = false → freeFd h g = true := fun h hl => freeFd_iff.2 ⟨g1, g2, hl⟩
  have n1 : ¬ SYS_MAX_FLOWS ≤ f := by unfold SYS_MAX_FLOWS; omega
  have n2 : ¬ PROG_MAX_FLOWS ≤ f := by unfold PROG_MAX_FLOWS; omega
  have n3 : p.length ≤ MAX_PACKET := by unfold MAX_PACKET; omega
  simp [run, step, ff, ha, hb, hn, HASH_LEN, Net.set, e1, hab, hba, mgmt, init, Host.init, p1, fg, upd, e2, p2, allocReply, n1, n2, n3, e3]

end Ouro.Udp
