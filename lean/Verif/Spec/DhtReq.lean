import Verif.Model.DhtReq

/-!
# Answers belong to questions
-/

namespace Ouro.DhtReq

/-- The response `m` is what some member sent as the answer to question `m.ans`: it carries the cookie of that question. It may be late. -/
def Answers (s : St) (m : Resp) : Prop := ∃ x, s.qs[m.ans]? = some x ∧ x.cookie = m.cookie

/-- Every response that arrives answers a question of this member; the network may delay it arbitrarily. -/
def Honest (s : St) : Op → Prop
  | .reply m => Answers s m
  | _ => True

/-- Responses moreover arrive while their question is waiting for one and its cookie is known to the lookup; the worker gives up on questions of
lookups that have ended only; no question is asked while a response is in hand; responses to others can be sent. -/
def Timely (s : St) : Op → Prop
  | .reply m => ∃ x, s.qs[m.ans]? = some x ∧ x.cookie = m.cookie ∧ x.stage = .recorded ∧ m.ans ∈ s.reqs
  | .expire q => ∀ x, s.qs[q]? = some x → x.lk ∉ s.lks
  | .ask _ _ => s.hands = []
  | .respFail _ => False
  | _ => True

/-- Responses to others can be sent. -/
def NoFail (_ : St) : Op → Prop
  | .respFail _ => False
  | _ => True

/-- The states reached by operations that satisfy `ok`. -/
inductive Reach (ok : St → Op → Prop) : St → Prop
  | init : Reach ok init
  | step {s s' : St} {op : Op} : Reach ok s → ok s op → step s op = .ok s' → Reach ok s'

/-- The response given to lookup `l` answers a question of `l`. -/
def Right (s : St) : Prop := ∀ p ∈ s.given, ∃ x, s.qs[p.2.ans]? = some x ∧ x.lk = p.1

/-- Members that answer a question for a key answer with addresses `reg` has for that key. -/
def Truthful (reg : Nat → Nat → Prop) (s : St) : Op → Prop
  | .reply m => ∀ x, s.qs[m.ans]? = some x → ∀ a ∈ m.addrs, reg (s.lk x.lk).key a
  | _ => True

/-- A response answers a question for another key than that of the lookup it was given to, and that lookup ends with the addresses in it. -/
def Mixed (s : St) (l : Nat) (m : Resp) : Prop :=
  (l, m) ∈ s.given ∧ m.addrs ≠ [] ∧ (s.lk l).addrs = m.addrs ∧ ∃ x, s.qs[m.ans]? = some x ∧ (s.lk x.lk).key ≠ (s.lk l).key

end Ouro.DhtReq
