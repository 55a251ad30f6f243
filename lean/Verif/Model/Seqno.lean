/-!
# Model of the sequence number comparison (`src/lib/frct.c`)
-/

namespace Ouro.Seqno

/-- `before`, src/lib/frct.c:223-227: `(int32_t)(seq1 - seq2) < 0`. -/
def before (seq1 seq2 : BitVec 32) : Bool := decide ((seq1 - seq2).toInt < 0)

/-- `after`, src/lib/frct.c:229-233. -/
def after (seq1 seq2 : BitVec 32) : Bool := decide ((seq2 - seq1).toInt < 0)

end Ouro.Seqno
