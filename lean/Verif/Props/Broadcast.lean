import Verif.Proof.Broadcast

/-!
# C38 — the broadcast layer forwards to every other neighbour exactly once

* One process: for every history of neighbours coming and going, a packet is written once to every other neighbour and to nobody else.
* A tree of processes (`Layer.Over`, defined in `Verif/Proof/Broadcast.lean`: the flows between members are the edges of a tree, of any size): whatever the order in
  which packets are read, nobody gets a packet twice, and when no copy is on its way any more everybody but the sender got it. Applications that
  joined the layer are leaves of the tree.
-/

namespace Ouro.Broadcast

open Spec.Broadcast

/-- C38, one process. In every history, at every packet that is read: it is written once to every neighbour that joined and did not leave, except the one
it came from, and to nobody else. -/
theorem C38_forwards (before after : List Op) (inFd : Int) :
    ∃ ws, (run init (before ++ .packet inFd :: after)).2[before.length]? = some (.packet inFd, ws) ∧
      Forwarded (fun fd => present fd (evs before)) inFd ws := by
  obtain ⟨h1, h2⟩ := run_inv before init [] (by simp [init]) (by simp [init, present])
  rw [List.append_nil] at h2
  refine ⟨packet (run init before).1 inFd, ?_, packet_spec _ h1 _ h2 _⟩
  rw [run_append, List.getElem?_append_right (by rw [run_length]), run_length]
  simp [run, step]

/-- Non-vacuity: neighbours 3, 4 and 5 join, 4 twice; 3 leaves; a packet from 4 goes to 5, one from 7 to both. -/
example : ((run init [.connAdd 3 true, .connAdd 4 true, .connAdd 4 true, .connAdd 5 true, .packet 4, .connDel 3, .packet 4, .packet 7]).2.map (·.2)) =
    [[], [], [], [], [3, 5], [], [5], [4, 5]] := by decide
example : present 5 (evs [.connAdd 3 true, .connAdd 5 true, .connDel 3]) ∧ ¬ present 3 (evs [.connAdd 3 true, .connAdd 5 true, .connDel 3]) := by
  simp [present, evs, evOf]

/-- C38, nothing but a packet makes the process write. -/
theorem C38_silent (ops : List Op) (i : Nat) (op : Op) (ws : List Int) (h : (run init ops).2[i]? = some (op, ws))
    (hop : ∀ fd, op ≠ .packet fd) : ws = [] := by
  have : ∀ (ops : List Op) (s : State) (i : Nat), (run s ops).2[i]? = some (op, ws) → ws = [] := by
    intro ops
    induction ops with
    | nil => simp [run]
    | cons o ops ih =>
      intro s i h
      cases i with
      | succ i => exact ih (step s o).1 i (by simpa [run] using h)
      | zero =>
        simp only [run, List.getElem?_cons_zero, Option.some.injEq, Prod.mk.injEq] at h
        obtain ⟨rfl, rfl⟩ := h
        cases o with
        | connAdd => rfl
        | connDel => rfl
        | packet fd => exact absurd rfl (hop fd)
  exact this ops init i h

variable {V : Type} {G : SimpleGraph V}

/-- C38, tree. At every moment: no member got the packet twice, and the sender did not get it back. -/
theorem C38_at_most_once {L : Layer V} (hG : G.IsTree) (hL : L.Over G) (s : V) {f : Flood V} (h : Flood.Steps L (originate L s) f) :
    f.got.Nodup ∧ s ∉ f.got :=
  have hs := spread_steps hG hL (spread_originate hG hL s) h
  ⟨(List.nodup_append.mp hs.nodup).2.1, hs.notSrc⟩

/-- C38, tree. When no copy is on its way any more, every member except the sender got exactly one copy. -/
theorem C38_exactly_once [DecidableEq V] {L : Layer V} (hG : G.IsTree) (hL : L.Over G) (s : V) {f : Flood V}
    (h : Flood.Steps L (originate L s) f) (hdone : f.inflight = []) (v : V) : f.got.count v = if v = s then 0 else 1 := by
  have hs := spread_steps hG hL (spread_originate hG hL s) h
  obtain ⟨h1, h2⟩ := C38_at_most_once hG hL s h
  by_cases hv : v = s
  · rw [if_pos hv, hv, List.count_eq_zero]; exact h2
  · rw [if_neg hv]; exact List.count_eq_one_of_mem h1 (spread_done hG hs hdone v hv)

/-- C38, tree. The packet dies out: in a layer with `n` members fewer than `n` copies are read, in any order. -/
theorem C38_dies_out [Fintype V] {L : Layer V} (hG : G.IsTree) (hL : L.Over G) (s : V) {f : Flood V} (h : Flood.Steps L (originate L s) f) :
    f.got.length + f.inflight.length < Fintype.card V := by
  classical
  have hs := spread_steps hG hL (spread_originate hG hL s) h
  have hn : (s :: (f.inflight.map Prod.fst ++ f.got)).Nodup := by
    rw [List.nodup_cons]
    refine ⟨?_, hs.nodup⟩
    rw [List.mem_append]
    rintro (h1 | h1)
    · obtain ⟨⟨v, fd⟩, h2, rfl⟩ := List.mem_map.mp h1
      exact closer_ne (hs.flow v fd h2).2 rfl
    · exact hs.notSrc h1
  have := hn.length_le_card
  simp at this
  omega

/-- Every copy on its way can be read: a layer does not get stuck before the packet died out. -/
theorem C38_progress {L : Layer V} (f : Flood V) (h : f.inflight ≠ []) : ∃ g, Flood.Step L f g ∧ g.got.length = f.got.length + 1 := by
  obtain ⟨inflight, got⟩ := f
  cases inflight with
  | nil => exact absurd rfl h
  | cons p l => exact ⟨_, Flood.Step.read [] l p.1 p.2 got, rfl⟩

/-! ### A concrete layer: `0 — 1 — 2` -/

/-- Process 0 reaches 1 on its flow 64; process 1 reaches 0 on 64 and 2 on 65; process 2 reaches 1 on 70. -/
def line : Layer (Fin 3) where
  net v := match v with | 0 => [64] | 1 => [64, 65] | 2 => [70]
  link v fd := match v with
    | 0 => (1, 64)
    | 1 => if fd = 64 then (0, 64) else (2, 70)
    | 2 => (1, 65)

/-- Its graph. -/
def lineGraph : SimpleGraph (Fin 3) where
  Adj v w := (v = 0 ∧ w = 1) ∨ (v = 1 ∧ w = 0) ∨ (v = 1 ∧ w = 2) ∨ (v = 2 ∧ w = 1)
  symm := ⟨by decide⟩
  loopless := ⟨by decide⟩

example : line.Over lineGraph where
  nodup := by decide
  adj := by
    intro v fd h
    fin_cases v <;> simp [line] at h ⊢ <;> simp [lineGraph] <;> (try rcases h with rfl | rfl) <;> decide
  back := by
    intro v fd h
    fin_cases v <;> simp [line] at h ⊢ <;> (try rcases h with rfl | rfl) <;> simp_all
  inj := by
    intro v fd fd' h h'
    fin_cases v <;> simp [line] at h h' ⊢ <;> (try rcases h with rfl | rfl) <;> (try rcases h' with rfl | rfl) <;> simp_all
  surj := by
    intro v w h
    fin_cases v <;> fin_cases w <;> simp [lineGraph, line] at h ⊢

example : lineGraph.IsTree := by
  classical
  have hc : lineGraph.Connected := by
    rw [SimpleGraph.connected_iff_exists_forall_reachable]
    have h1 : lineGraph.Adj 1 0 := by simp [lineGraph]
    have h2 : lineGraph.Adj 1 2 := by simp [lineGraph]
    refine ⟨1, fun w => ?_⟩
    fin_cases w
    · exact h1.reachable
    · exact SimpleGraph.Reachable.refl _
    · exact h2.reachable
  rw [SimpleGraph.isTree_iff_connected_and_card]
  refine ⟨hc, ?_⟩
  have : lineGraph.edgeSet = {s(0, 1), s(1, 2)} := by
    ext e
    induction e with
    | h a b => fin_cases a <;> fin_cases b <;> simp [lineGraph]
  rw [this]
  simp

/-- The packet of process 0 reaches 1 and then 2. -/
example : Flood.Steps line (originate line 0) ⟨[], [2, 1]⟩ :=
  .tail (.tail (.refl _) (Flood.Step.read [] [] 1 64 [])) (Flood.Step.read [] [] 2 70 [1])

end Ouro.Broadcast
