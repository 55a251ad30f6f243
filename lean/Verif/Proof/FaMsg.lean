import Verif.Model.FaMsg
import Verif.Proof.Bytes

namespace Ouro.FaMsg

@[simp] theorem length_beBytes (n v : Nat) : (beBytes n v).length = n := by simp [beBytes]

theorem beVal_beBytes {n v : Nat} (h : v < 256 ^ n) : beVal (beBytes n v) = v := by
  simp [beVal, beBytes, leVal_leBytes_lt h]

theorem slice_fields (fs : List (List Byte)) (tail : List Byte) (i : Nat) (hi : i < fs.length) :
    slice (fs.flatten ++ tail) ((fs.take i).map List.length).sum (fs[i].length) = .ok fs[i] := by
  have e : fs.flatten ++ tail = (fs.take i).flatten ++ (fs[i] ++ ((fs.drop (i + 1)).flatten ++ tail)) := by
    have : fs = fs.take i ++ fs[i] :: fs.drop (i + 1) := by
      rw [← List.drop_eq_getElem_cons hi, List.take_append_drop]
    calc fs.flatten ++ tail = (fs.take i ++ fs[i] :: fs.drop (i + 1)).flatten ++ tail := by rw [← this]
      _ = _ := by simp only [List.flatten_append, List.flatten_cons, List.append_assoc]
  rw [e]
  exact slice_mid (by rw [List.length_flatten]) rfl

theorem rd_of_slice {b : List Byte} {i : Nat} {x : Byte} (h : slice b i 1 = .ok [x]) : rd b i = .ok x := by
  unfold slice at h
  split at h
  · rename_i hl
    have h1 := Outcome.ok.inj h
    rw [List.drop_eq_getElem_cons (by omega)] at h1
    simp only [List.take_succ_cons, List.take_zero, List.cons.injEq, and_true] at h1
    unfold rd
    rw [List.getElem?_eq_getElem (by omega)]
    simp only [h1]
  · cases h

theorem length_fields (sAddr rEid sEid : Nat) (code response : Byte) (ece : Nat) (q : Qoscube.Spec) :
    (fields sAddr rEid sEid code response ece q).flatten.length = 60 := by
  simp [fields]

end Ouro.FaMsg
