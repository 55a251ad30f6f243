import Verif.Model.Unicast

/-!
# What the users of a unicast layer rely on
-/

namespace Ouro.Unicast

/-- One of the two flows was set up for the request of the other. -/
def Peer (s : State) (i j : Nat) : Prop := (i, j) ∈ s.pairs ∨ (j, i) ∈ s.pairs

/-- The addresses of the members differ, and the flow allocator has a component id. -/
structure Layer.Ok (L : Layer) : Prop where
  inj : ∀ n m, n < L.size → m < L.size → L.addr n = L.addr m → n = m
  comp : L.fa.toNat < 64

/-- No flow of member `n` ever had this endpoint id. -/
def Fresh (s : State) (n : Nat) (e : BitVec 64) : Prop := ∀ i, s.home i = n → s.eidOf i ≠ some e

/-- No thread of member `n` is about to write to descriptor `fd`. -/
def NoWriter (s : State) (n fd : Nat) : Prop := ∀ i b, (n, fd, i, b) ∉ s.writing

/-- Next hops are members. -/
def Member (L : Layer) (hop : Option Nat) : Prop := ∀ m, hop = some m → m < L.size

/-- What the theorems ask of the surroundings: packets go to members; endpoint ids are not generated twice by a member; a descriptor is not used again while a thread is
about to write a packet to it; and a flow is not deallocated while a thread sets it up, a response for it is awaited, or the scheduler has one of
its packets. -/
def Proper (L : Layer) (s : State) : Op → Prop
  | .alloc n fd rnd _ hop => rnd ≠ none ∧ Fresh s n (genEid L fd rnd) ∧ NoWriter s n fd ∧ n < L.size ∧ Member L hop
  | .request n _ fd => ∀ d, fd = some d → NoWriter s n d
  | .setup n rnd => rnd ≠ none ∧ ∀ fd j e a, (s.node n).worker = some (fd, j, e, a) → Fresh s n (genEid L fd rnd)
  | .clear n fd => (s.node n).allocating fd = none ∧ (∀ j e a, (s.node n).worker ≠ some (fd, j, e, a)) ∧
      (s.node n).allocId ≠ some fd ∧ ∀ i b, (n, fd, i, b) ∉ s.reading
  | .respond _ _ hop => Member L hop
  | .send _ hop => Member L hop
  | .hop _ next => Member L next
  | .notify _ hop => Member L hop
  | _ => True

/-- The states of the layer. -/
inductive Reach (L : Layer) : State → Prop where
  | init : Reach L init
  | step {s t op} : Reach L s → Proper L s op → step L s op = some t → Reach L t

/-- The same, on networks that do not duplicate packets. -/
inductive ReachOnce (L : Layer) : State → Prop where
  | init : ReachOnce L init
  | step {s t op} : ReachOnce L s → Proper L s op → (∀ k, op ≠ .dup k) → step L s op = some t → ReachOnce L t

end Ouro.Unicast
