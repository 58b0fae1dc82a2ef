import Verif.Proofs.Bits
/-! `Flatten` and `Unflatten` -/
namespace MlKem
open Rust

theorem flatten_getElem {T : Type} {M N : Nat} (v : Vector (Vector T M) N) {i j : Nat}
    (hi : i < N) (hj : j < M) (h : i * M + j < M * N) :
    (flatten v)[i * M + j] = v[i][j] := by
  have e1 : (i * M + j) / M = i := by
    rw [Nat.mul_comm, Nat.mul_add_div (by omega), Nat.div_eq_of_lt hj]; omega
  have e2 : (i * M + j) % M = j := by
    rw [Nat.mul_comm, Nat.mul_add_mod, Nat.mod_eq_of_lt hj]
  simp [flatten, e1, e2]

theorem offset_lt {M N i j : Nat} (hi : i < N) (hj : j < M) : i * M + j < M * N := by
  have : (i + 1) * M ≤ N * M := Nat.mul_le_mul_right _ hi
  rw [Nat.add_mul] at this
  rw [Nat.mul_comm M N]; omega

theorem unflatten_getElem {T : Type} {N P M : Nat} (hN : N = P * M) (v : Vector T N) {i j : Nat}
    (hi : i < M) (hj : j < P) :
    (unflatten hN v)[i][j] = v[i * P + j]'(by rw [hN]; exact offset_lt hi hj) := by
  simp [unflatten]

theorem unflatten_flatten {T : Type} {M N : Nat} (v : Vector (Vector T M) N) :
    unflatten rfl (flatten v) = v := by
  ext i hi j hj
  rw [unflatten_getElem rfl _ hi hj, flatten_getElem v hi hj]

theorem flatten_unflatten {T : Type} {P M : Nat} (v : Vector T (P * M)) :
    flatten (unflatten rfl v) = v := by
  ext t ht
  have hP : 0 < P := Nat.pos_of_ne_zero fun h => by simp [h] at ht
  have h1 : t / P < M := Nat.div_lt_of_lt_mul ht
  have h2 : t % P < P := Nat.mod_lt _ hP
  have e : t / P * P + t % P = t := by rw [Nat.mul_comm]; exact Nat.div_add_mod _ _
  have := flatten_getElem (unflatten rfl v) h1 h2 (by rw [e]; exact ht)
  rw [unflatten_getElem rfl v h1 h2] at this
  simpa only [e] using this

theorem unflattenRef_eq {T : Type} {N P M : Nat} (hN : N = P * M) (v : Vector T N) :
    unflattenRef hN v = .ok (unflatten hN v) := by
  unfold unflattenRef
  dsimp only
  obtain ⟨s', h1, _⟩ := tabulateState_inv (n := M) (σ := Nat) (s0 := 0)
    (f := fun _i ptr => do
      let part ← tabulate P fun j => idx v (ptr + j.val)
      .ok (part, ptr + P))
    (fun i ptr => ptr = i * P) (fun i => (unflatten hN v)[i.val]) (by simp) (by
      intro i ptr hptr
      subst hptr
      refine ⟨i.val * P + P, ?_, by rw [Nat.add_mul]; omega⟩
      rw [tabulate_ok (g := fun j : Fin P => (unflatten hN v)[i.val][j.val])]
      · simp
      · intro j
        rw [idx_ok _ (by rw [hN]; exact offset_lt i.isLt j.isLt),
          unflatten_getElem hN v i.isLt j.isLt])
  rw [h1, Res.ok_bind]
  congr 1
  ext i hi
  simp

theorem ofFn_eq_range_map {α : Type} {n : Nat} (f : Fin n → List α) :
    List.ofFn f = (List.range n).map fun c => if h : c < n then f ⟨c, h⟩ else [] := by
  apply List.ext_getElem
  · simp
  · intro i h1 h2
    have : i < n := by simpa using h1
    simp [this]

theorem flatten_toList {T : Type} {M N : Nat} (v : Vector (Vector T M) N) :
    (flatten v).toList = (List.ofFn fun i : Fin N => v[i].toList).flatten := by
  have hu : ∀ c, c < N → (if h : c < N then v[c].toList else []).length = M := by
    intro c hc; simp [hc]
  rw [ofFn_eq_range_map]
  simp only [Fin.getElem_fin]
  apply List.ext_getElem?
  intro t
  by_cases ht : t < M * N
  · have hM : 0 < M := Nat.pos_of_ne_zero fun h => by simp [h] at ht
    have h1 : t / M < N := Nat.div_lt_of_lt_mul ht
    have h2 : t % M < M := Nat.mod_lt _ hM
    rw [flatten_uniform_getElem? N hu ht, dif_pos h1]
    simp [flatten, ht, h2]
  · rw [List.getElem?_eq_none (by simp; omega),
      List.getElem?_eq_none (by rw [flatten_uniform_length N hu]; omega)]

theorem unflatten_toList {T : Type} {N P M : Nat} (hN : N = P * M) (v : Vector T N) {i : Nat}
    (hi : i < M) : (unflatten hN v)[i].toList = (v.toList.drop (P * i)).take P := by
  have hle : P * i + P ≤ N := by
    rw [hN, ← Nat.mul_succ]; exact Nat.mul_le_mul_left _ hi
  apply List.ext_getElem
  · simp; omega
  · intro j h1 h2
    have hj : j < P := by simpa using h1
    simp only [Vector.getElem_toList, List.getElem_take, List.getElem_drop]
    rw [unflatten_getElem hN v hi hj]
    congr 1
    rw [Nat.mul_comm]

end MlKem
