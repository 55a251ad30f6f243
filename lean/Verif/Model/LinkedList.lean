/-!
# Model of `src/lib/list.c`: circular doubly linked lists in a heap
-/

namespace Ouro.LinkedList

/-- The heap: the two pointers of every node (`struct list_head`, include/ouroboros/list.h:31-34). Nodes are numbers. -/
structure Heap where
  nxt : Nat → Nat
  prv : Nat → Nat

/-- `p->nxt = v` [src/lib/list.c:27-48] -/
def setNxt (h : Heap) (p v : Nat) : Heap := { h with nxt := fun q => if q = p then v else h.nxt q }
/-- `p->prv = v` [src/lib/list.c:27-48] -/
def setPrv (h : Heap) (p v : Nat) : Heap := { h with prv := fun q => if q = p then v else h.prv q }

/-- `list_head_init`, src/lib/list.c:27-31. -/
def headInit (h : Heap) (x : Nat) : Heap := setPrv (setNxt h x x) x x

/-- `add_list`, src/lib/list.c:33-41: the four stores in order. -/
def addList (h : Heap) (n prv nxt : Nat) : Heap := setNxt (setPrv (setNxt (setPrv h nxt n) n nxt) n prv) prv n

/-- `del_list`, src/lib/list.c:43-48. -/
def delList (h : Heap) (prv nxt : Nat) : Heap := setNxt (setPrv h nxt prv) prv nxt

/-- `list_add`, src/lib/list.c:50-54. -/
def listAdd (h : Heap) (n x : Nat) : Heap := addList h n x (h.nxt x)

/-- `list_add_tail`, src/lib/list.c:56-60. -/
def listAddTail (h : Heap) (n x : Nat) : Heap := addList h n (h.prv x) x

/-- `list_del`, src/lib/list.c:62-66. -/
def listDel (h : Heap) (e : Nat) : Heap :=
  let h := delList h (h.prv e) (h.nxt e)
  setNxt (setPrv h e e) e e

/-- `list_is_empty`, src/lib/list.c:68-71. -/
def listIsEmpty (h : Heap) (x : Nat) : Bool := h.nxt x == x

/-- `list_move`, src/lib/list.c:73-78. -/
def listMove (h : Heap) (n x : Nat) : Heap :=
  let h := delList h (h.prv n) (h.nxt n)
  addList h n x (h.nxt x)

end Ouro.LinkedList
