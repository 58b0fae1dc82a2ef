import Verif.Proofs.Pocklington
import Verif.Spec.SmallOrder
/-! The orders of the large subgroups of curve25519 and of its twist are prime. -/
namespace Rfc7748
open Pocklington


theorem r1 : Nat.Prime 1257559732178653 := by
  refine prime_of_check (bits := 51) (fs := [(7, 1, 2),
    (23, 1, 2),
    (531581, 1, 2)]) ?_
    (by decide +kernel)
  simp only [List.forall_mem_cons, List.not_mem_nil, false_implies, implies_true, and_true]
  exact ⟨by norm_num, by norm_num, by norm_num⟩

theorem r2 : Nat.Prime 4434155615661930479 := by
  refine prime_of_check (bits := 62) (fs := [(1257559732178653, 1, 2)]) ?_
    (by decide +kernel)
  simp only [List.forall_mem_cons, List.not_mem_nil, false_implies, implies_true, and_true]
  exact r1

theorem r3 : Nat.Prime 0x8e51fa3a480f89f9de5163 := by
  refine prime_of_check (bits := 88) (fs := [(4434155615661930479, 1, 2)]) ?_
    (by decide +kernel)
  simp only [List.forall_mem_cons, List.not_mem_nil, false_implies, implies_true, and_true]
  exact r2

theorem r4 : Nat.Prime 0x3a0fc367dcf0ff0a5a1db0b1b7c3093f33 := by
  refine prime_of_check (bits := 134) (fs := [(0x8e51fa3a480f89f9de5163, 1, 2)]) ?_
    (by decide +kernel)
  simp only [List.forall_mem_cons, List.not_mem_nil, false_implies, implies_true, and_true]
  exact r3

theorem r5 : Nat.Prime 0x32cdcafae152df290ed9fa9b80caa8174cb := by
  refine prime_of_check (bits := 138) (fs := [(0x3a0fc367dcf0ff0a5a1db0b1b7c3093f33, 1, 2)]) ?_
    (by decide +kernel)
  simp only [List.forall_mem_cons, List.not_mem_nil, false_implies, implies_true, and_true]
  exact r4

theorem order_prime : Nat.Prime order := by
  refine prime_of_check (bits := 253) (fs := [(0x32cdcafae152df290ed9fa9b80caa8174cb, 1, 2)]) ?_
    (by decide +kernel)
  simp only [List.forall_mem_cons, List.not_mem_nil, false_implies, implies_true, and_true]
  exact r5

theorem r7 : Nat.Prime 743104567 := by
  refine prime_of_check (bits := 30) (fs := [(3, 2, 2),
    (3637, 1, 2)]) ?_
    (by decide +kernel)
  simp only [List.forall_mem_cons, List.not_mem_nil, false_implies, implies_true, and_true]
  exact ⟨by norm_num, by norm_num⟩

theorem r8 : Nat.Prime 1013266244677 := by
  refine prime_of_check (bits := 40) (fs := [(383, 1, 2),
    (3911, 1, 2)]) ?_
    (by decide +kernel)
  simp only [List.forall_mem_cons, List.not_mem_nil, false_implies, implies_true, and_true]
  exact ⟨by norm_num, by norm_num⟩

theorem r9 : Nat.Prime 0x25711a408bf372fea93b0d3a746738a790d := by
  refine prime_of_check (bits := 138) (fs := [(743104567, 1, 2),
    (1013266244677, 1, 2)]) ?_
    (by decide +kernel)
  simp only [List.forall_mem_cons, List.not_mem_nil, false_implies, implies_true, and_true]
  exact ⟨r7, r8⟩

theorem r10 : Nat.Prime 0x1257c402a99ff4f0d2d39237c859368115416a55 := by
  refine prime_of_check (bits := 157) (fs := [(0x25711a408bf372fea93b0d3a746738a790d, 1, 2)]) ?_
    (by decide +kernel)
  simp only [List.forall_mem_cons, List.not_mem_nil, false_implies, implies_true, and_true]
  exact r9

theorem r11 : Nat.Prime 0x4944fb3ff2b6a45304e2840b3a13fb2ad57b7050cf25 := by
  refine prime_of_check (bits := 175) (fs := [(0x1257c402a99ff4f0d2d39237c859368115416a55, 1, 2)]) ?_
    (by decide +kernel)
  simp only [List.forall_mem_cons, List.not_mem_nil, false_implies, implies_true, and_true]
  exact r10

theorem twist_prime : Nat.Prime twistOrder := by
  refine prime_of_check (bits := 253) (fs := [(0x4944fb3ff2b6a45304e2840b3a13fb2ad57b7050cf25, 1, 2)]) ?_
    (by decide +kernel)
  simp only [List.forall_mem_cons, List.not_mem_nil, false_implies, implies_true, and_true]
  exact r11

end Rfc7748
