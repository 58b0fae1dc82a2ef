import Verif.Proofs.Pocklington
import Verif.Spec.Sec2
/-! The field sizes and group orders of the named curves are prime, by chains of Pocklington certificates. -/
namespace Pocklington
open Sec2

theorem q1 : Nat.Prime 0xc03a94b2d3e64419a05cd8ccbf987069 := by
  refine prime_of_check (bits := 128) (fs := [(1627, 1, 2),
    (2657, 1, 2),
    (4423, 1, 2),
    (41201, 1, 2),
    (96557, 1, 2)]) ?_
    (by decide +kernel)
  simp only [List.forall_mem_cons, List.not_mem_nil, false_implies, implies_true, and_true]
  exact ⟨by norm_num, by norm_num, by norm_num, by norm_num, by norm_num⟩

theorem q2 : Nat.Prime 0x1db8260e5e3b460a46a0088fccf6a3a5936d75d89a776d4c0da4f338aafb := by
  refine prime_of_check (bits := 237) (fs := [(0xc03a94b2d3e64419a05cd8ccbf987069, 1, 2)]) ?_
    (by decide +kernel)
  simp only [List.forall_mem_cons, List.not_mem_nil, false_implies, implies_true, and_true]
  exact q1

theorem secp256k1_p : Nat.Prime (Named.secp256k1.params.p) := by
  refine prime_of_check (bits := 256) (fs := [(0x1db8260e5e3b460a46a0088fccf6a3a5936d75d89a776d4c0da4f338aafb, 1, 2)]) ?_
    (by decide +kernel)
  simp only [List.forall_mem_cons, List.not_mem_nil, false_implies, implies_true, and_true]
  exact q2

theorem q4 : Nat.Prime 107361793816595537 := by
  refine prime_of_check (bits := 57) (fs := [(16699, 1, 2),
    (85831, 1, 2)]) ?_
    (by decide +kernel)
  simp only [List.forall_mem_cons, List.not_mem_nil, false_implies, implies_true, and_true]
  exact ⟨by norm_num, by norm_num⟩

theorem q5 : Nat.Prime 0x978c6f353c3889a79 := by
  refine prime_of_check (bits := 68) (fs := [(59, 1, 2),
    (4051, 1, 2),
    (120233, 1, 2)]) ?_
    (by decide +kernel)
  simp only [List.forall_mem_cons, List.not_mem_nil, false_implies, implies_true, and_true]
  exact ⟨by norm_num, by norm_num, by norm_num⟩

theorem secp256k1_n : Nat.Prime (Named.secp256k1.params.n) := by
  refine prime_of_check (bits := 256) (fs := [(631, 1, 2),
    (107361793816595537, 1, 2),
    (0x978c6f353c3889a79, 1, 2)]) ?_
    (by decide +kernel)
  simp only [List.forall_mem_cons, List.not_mem_nil, false_implies, implies_true, and_true]
  exact ⟨by norm_num, q4, q5⟩

theorem q7 : Nat.Prime 204061199 := by
  refine prime_of_check (bits := 28) (fs := [(11, 1, 3),
    (23, 1, 2),
    (107, 1, 2)]) ?_
    (by decide +kernel)
  simp only [List.forall_mem_cons, List.not_mem_nil, false_implies, implies_true, and_true]
  exact ⟨by norm_num, by norm_num, by norm_num⟩

theorem q8 : Nat.Prime 34282281433 := by
  refine prime_of_check (bits := 35) (fs := [(204061199, 1, 2)]) ?_
    (by decide +kernel)
  simp only [List.forall_mem_cons, List.not_mem_nil, false_implies, implies_true, and_true]
  exact q7

theorem q9 : Nat.Prime 66417393611 := by
  refine prime_of_check (bits := 36) (fs := [(53, 1, 2),
    (173, 1, 2),
    (197, 1, 2)]) ?_
    (by decide +kernel)
  simp only [List.forall_mem_cons, List.not_mem_nil, false_implies, implies_true, and_true]
  exact ⟨by norm_num, by norm_num, by norm_num⟩

theorem q10 : Nat.Prime 11290956913871 := by
  refine prime_of_check (bits := 44) (fs := [(66417393611, 1, 2)]) ?_
    (by decide +kernel)
  simp only [List.forall_mem_cons, List.not_mem_nil, false_implies, implies_true, and_true]
  exact q9

theorem q11 : Nat.Prime 0x22b559b5c816ae00f2378e18df38c5410ed597 := by
  refine prime_of_check (bits := 150) (fs := [(34282281433, 1, 2),
    (11290956913871, 1, 2)]) ?_
    (by decide +kernel)
  simp only [List.forall_mem_cons, List.not_mem_nil, false_implies, implies_true, and_true]
  exact ⟨q8, q10⟩

theorem q12 : Nat.Prime 0x926d1276e41fae13fdda5f78edb7802a76951509 := by
  refine prime_of_check (bits := 160) (fs := [(0x22b559b5c816ae00f2378e18df38c5410ed597, 1, 2)]) ?_
    (by decide +kernel)
  simp only [List.forall_mem_cons, List.not_mem_nil, false_implies, implies_true, and_true]
  exact q11

theorem p256_p : Nat.Prime (Named.p256.params.p) := by
  refine prime_of_check (bits := 256) (fs := [(0x926d1276e41fae13fdda5f78edb7802a76951509, 1, 2)]) ?_
    (by decide +kernel)
  simp only [List.forall_mem_cons, List.not_mem_nil, false_implies, implies_true, and_true]
  exact q12

theorem q14 : Nat.Prime 187019741 := by
  refine prime_of_check (bits := 28) (fs := [(9350987, 1, 2)]) ?_
    (by decide +kernel)
  simp only [List.forall_mem_cons, List.not_mem_nil, false_implies, implies_true, and_true]
  exact by norm_num

theorem q15 : Nat.Prime 311245691 := by
  refine prime_of_check (bits := 29) (fs := [(7, 1, 2),
    (17, 1, 2),
    (29, 2, 2)]) ?_
    (by decide +kernel)
  simp only [List.forall_mem_cons, List.not_mem_nil, false_implies, implies_true, and_true]
  exact ⟨by norm_num, by norm_num, by norm_num⟩

theorem q16 : Nat.Prime 622491383 := by
  refine prime_of_check (bits := 30) (fs := [(311245691, 1, 2)]) ?_
    (by decide +kernel)
  simp only [List.forall_mem_cons, List.not_mem_nil, false_implies, implies_true, and_true]
  exact q15

theorem q17 : Nat.Prime 1002328039319 := by
  refine prime_of_check (bits := 40) (fs := [(3969899, 1, 2)]) ?_
    (by decide +kernel)
  simp only [List.forall_mem_cons, List.not_mem_nil, false_implies, implies_true, and_true]
  exact by norm_num

theorem p256_n : Nat.Prime (Named.p256.params.n) := by
  refine prime_of_check (bits := 256) (fs := [(3407, 1, 2),
    (17449, 1, 2),
    (38189, 1, 2),
    (187019741, 1, 2),
    (622491383, 1, 2),
    (1002328039319, 1, 2)]) ?_
    (by decide +kernel)
  simp only [List.forall_mem_cons, List.not_mem_nil, false_implies, implies_true, and_true]
  exact ⟨by norm_num, by norm_num, by norm_num, q14, q16, q17⟩

theorem q19 : Nat.Prime 513928823 := by
  refine prime_of_check (bits := 29) (fs := [(59, 1, 2),
    (599, 1, 2)]) ?_
    (by decide +kernel)
  simp only [List.forall_mem_cons, List.not_mem_nil, false_implies, implies_true, and_true]
  exact ⟨by norm_num, by norm_num⟩

theorem q20 : Nat.Prime 53448597593 := by
  refine prime_of_check (bits := 36) (fs := [(513928823, 1, 2)]) ?_
    (by decide +kernel)
  simp only [List.forall_mem_cons, List.not_mem_nil, false_implies, implies_true, and_true]
  exact q19

theorem q21 : Nat.Prime 1357291859799823621 := by
  refine prime_of_check (bits := 61) (fs := [(53448597593, 1, 2)]) ?_
    (by decide +kernel)
  simp only [List.forall_mem_cons, List.not_mem_nil, false_implies, implies_true, and_true]
  exact q20

theorem q22 : Nat.Prime 105957871 := by
  refine prime_of_check (bits := 27) (fs := [(5, 1, 2),
    (19, 1, 2),
    (211, 1, 2)]) ?_
    (by decide +kernel)
  simp only [List.forall_mem_cons, List.not_mem_nil, false_implies, implies_true, and_true]
  exact ⟨by norm_num, by norm_num, by norm_num⟩

theorem q23 : Nat.Prime 0x1cb733b306cfe30dd1 := by
  refine prime_of_check (bits := 69) (fs := [(7, 1, 2),
    (181, 1, 2),
    (105957871, 1, 2)]) ?_
    (by decide +kernel)
  simp only [List.forall_mem_cons, List.not_mem_nil, false_implies, implies_true, and_true]
  exact ⟨by norm_num, by norm_num, q22⟩

theorem q24 : Nat.Prime 0x23108c4e1b4108ec0ae7f9ac9f118677a6c53e44fd12fcacc07b805145240aae82349d3ce0e376778bd1 := by
  refine prime_of_check (bits := 334) (fs := [(8389, 1, 2),
    (38557, 1, 2),
    (312289, 1, 2),
    (1357291859799823621, 1, 2),
    (0x1cb733b306cfe30dd1, 1, 2)]) ?_
    (by decide +kernel)
  simp only [List.forall_mem_cons, List.not_mem_nil, false_implies, implies_true, and_true]
  exact ⟨by norm_num, by norm_num, by norm_num, q21, q23⟩

theorem p384_p : Nat.Prime (Named.p384.params.p) := by
  refine prime_of_check (bits := 384) (fs := [(0x23108c4e1b4108ec0ae7f9ac9f118677a6c53e44fd12fcacc07b805145240aae82349d3ce0e376778bd1, 1, 2)]) ?_
    (by decide +kernel)
  simp only [List.forall_mem_cons, List.not_mem_nil, false_implies, implies_true, and_true]
  exact q24

theorem q26 : Nat.Prime 37344768852931 := by
  refine prime_of_check (bits := 46) (fs := [(9863677, 1, 2)]) ?_
    (by decide +kernel)
  simp only [List.forall_mem_cons, List.not_mem_nil, false_implies, implies_true, and_true]
  exact by norm_num

theorem q27 : Nat.Prime 55942463741690639 := by
  refine prime_of_check (bits := 56) (fs := [(37344768852931, 1, 2)]) ?_
    (by decide +kernel)
  simp only [List.forall_mem_cons, List.not_mem_nil, false_implies, implies_true, and_true]
  exact q26

theorem q28 : Nat.Prime 0xa8c55f664384d6fe203ca16a45d7238cad2d61237ce2fa5933 := by
  refine prime_of_check (bits := 200) (fs := [(251, 1, 2),
    (248431, 1, 2),
    (8463023, 1, 2),
    (55942463741690639, 1, 2)]) ?_
    (by decide +kernel)
  simp only [List.forall_mem_cons, List.not_mem_nil, false_implies, implies_true, and_true]
  exact ⟨by norm_num, by norm_num, by norm_num, q27⟩

theorem q29 : Nat.Prime 0x192a43d8f8a55b860e20c52b200024fbdd5c39850b80be9fa08e6156d781713c6b252c7 := by
  refine prime_of_check (bits := 281) (fs := [(0xa8c55f664384d6fe203ca16a45d7238cad2d61237ce2fa5933, 1, 2)]) ?_
    (by decide +kernel)
  simp only [List.forall_mem_cons, List.not_mem_nil, false_implies, implies_true, and_true]
  exact q28

theorem p384_n : Nat.Prime (Named.p384.params.n) := by
  refine prime_of_check (bits := 384) (fs := [(0x192a43d8f8a55b860e20c52b200024fbdd5c39850b80be9fa08e6156d781713c6b252c7, 1, 2)]) ?_
    (by decide +kernel)
  simp only [List.forall_mem_cons, List.not_mem_nil, false_implies, implies_true, and_true]
  exact q29

theorem q31 : Nat.Prime 34110701 := by
  refine prime_of_check (bits := 26) (fs := [(5, 2, 5),
    (13, 1, 2),
    (19, 1, 3)]) ?_
    (by decide +kernel)
  simp only [List.forall_mem_cons, List.not_mem_nil, false_implies, implies_true, and_true]
  exact ⟨by norm_num, by norm_num, by norm_num⟩

theorem q32 : Nat.Prime 308761441 := by
  refine prime_of_check (bits := 29) (fs := [(49481, 1, 3)]) ?_
    (by decide +kernel)
  simp only [List.forall_mem_cons, List.not_mem_nil, false_implies, implies_true, and_true]
  exact by norm_num

theorem p521_p : Nat.Prime (Named.p521.params.p) := by
  refine prime_of_check (bits := 521) (fs := [(17, 1, 3),
    (31, 1, 3),
    (41, 1, 3),
    (53, 1, 3),
    (131, 1, 3),
    (157, 1, 3),
    (521, 1, 2),
    (1613, 1, 3),
    (2731, 1, 3),
    (8191, 1, 3),
    (42641, 1, 3),
    (51481, 1, 3),
    (61681, 1, 3),
    (409891, 1, 3),
    (858001, 1, 3),
    (5746001, 1, 3),
    (7623851, 1, 3),
    (34110701, 1, 3),
    (308761441, 1, 3)]) ?_
    (by decide +kernel)
  simp only [List.forall_mem_cons, List.not_mem_nil, false_implies, implies_true, and_true]
  exact ⟨by norm_num, by norm_num, by norm_num, by norm_num, by norm_num, by norm_num, by norm_num, by norm_num, by norm_num, by norm_num, by norm_num, by norm_num, by norm_num, by norm_num, by norm_num, by norm_num, by norm_num, q31, q32⟩

theorem q34 : Nat.Prime 60018716061994831 := by
  refine prime_of_check (bits := 56) (fs := [(5, 1, 2),
    (7, 1, 2),
    (19, 1, 2),
    (777241, 1, 2)]) ?_
    (by decide +kernel)
  simp only [List.forall_mem_cons, List.not_mem_nil, false_implies, implies_true, and_true]
  exact ⟨by norm_num, by norm_num, by norm_num, by norm_num⟩

theorem q35 : Nat.Prime 0xe5d44c3fe9cf001873 := by
  refine prime_of_check (bits := 72) (fs := [(60018716061994831, 1, 2)]) ?_
    (by decide +kernel)
  simp only [List.forall_mem_cons, List.not_mem_nil, false_implies, implies_true, and_true]
  exact q34

theorem q36 : Nat.Prime 0x59692038853ba2a39463b0149af3859 := by
  refine prime_of_check (bits := 123) (fs := [(0xe5d44c3fe9cf001873, 1, 2)]) ?_
    (by decide +kernel)
  simp only [List.forall_mem_cons, List.not_mem_nil, false_implies, implies_true, and_true]
  exact q35

theorem q37 : Nat.Prime 0xa6fc66f961355bf57299eadf799cfd92769c4db1923363 := by
  refine prime_of_check (bits := 184) (fs := [(0x59692038853ba2a39463b0149af3859, 1, 2)]) ?_
    (by decide +kernel)
  simp only [List.forall_mem_cons, List.not_mem_nil, false_implies, implies_true, and_true]
  exact q36

theorem q38 : Nat.Prime 0x18c61e9d6f5364020bfb6e04363013a05dc6efa02ece541f304622ec35a464bdcd07d18a2ce4ee8b39c6438bdbf := by
  refine prime_of_check (bits := 361) (fs := [(0xa6fc66f961355bf57299eadf799cfd92769c4db1923363, 1, 2)]) ?_
    (by decide +kernel)
  simp only [List.forall_mem_cons, List.not_mem_nil, false_implies, implies_true, and_true]
  exact q37

theorem q39 : Nat.Prime 0x5bc065010a97a162f78b610a077bb97b53886bb266481d591d2d02fd6aa2bf7392c391499b2d8f744518c799a7c35911a7 := by
  refine prime_of_check (bits := 391) (fs := [(0x18c61e9d6f5364020bfb6e04363013a05dc6efa02ece541f304622ec35a464bdcd07d18a2ce4ee8b39c6438bdbf, 1, 2)]) ?_
    (by decide +kernel)
  simp only [List.forall_mem_cons, List.not_mem_nil, false_implies, implies_true, and_true]
  exact q38

theorem p521_n : Nat.Prime (Named.p521.params.n) := by
  refine prime_of_check (bits := 521) (fs := [(0x5bc065010a97a162f78b610a077bb97b53886bb266481d591d2d02fd6aa2bf7392c391499b2d8f744518c799a7c35911a7, 1, 2)]) ?_
    (by decide +kernel)
  simp only [List.forall_mem_cons, List.not_mem_nil, false_implies, implies_true, and_true]
  exact q39

end Pocklington
