import Verif.Props.Leak
/-!
C64: the subscripts of the noise tables, seen during an encapsulation, and the ciphertext give the message and the shared key.
-/
namespace Rust.Leak
variable {O α β γ : Type} {v : Event → Option O}

/-- Nothing is noticed. -/
def Silent (v : Event → Option O) (x : Leak α) : Prop := ∀ a, x.res = .ok a → seen v x = []

theorem Silent.op (r : Res α) : Silent v (op r) := fun _ _ => rfl

theorem Silent.emit {e : Event} (h : v e = none) : Silent v (emit e) := fun _ _ => by
  show List.filterMap v [e] = []
  rw [List.filterMap_cons_none h]
  rfl

theorem Silent.bind {x : Leak α} {f : α → Leak β} (h : Silent v x) (h' : ∀ a, Silent v (f a)) : Silent v (x >>= f) := by
  intro b hb
  rw [res_bind] at hb
  obtain ⟨a, ha, hab⟩ := Res.bind_eq_ok.1 hb
  rw [seen_bind ha, h a ha, h' a b hab]
  rfl

theorem Silent.mapList {f : α → Leak β} (hl : ∀ n, v (.loop n) = none) (h : ∀ a, Silent v (f a)) (xs : List α) :
    Silent v (mapList f xs) := by
  unfold Leak.mapList
  refine Silent.bind (Silent.emit (hl _)) fun _ => ?_
  induction xs with
  | nil => exact Silent.op _
  | cons x xs ih => exact Silent.bind (h x) fun _ => Silent.bind ih fun _ => Silent.op _

theorem Silent.after {x : Leak α} {f : α → Leak β} {a : α} (h : Silent v x) (ha : x.res = .ok a) :
    seen v (x >>= f) = seen v (f a) := by
  rw [seen_bind ha, h a ha]
  rfl

/-- If each run of the body shows its result, all the runs together show all the results. -/
theorem reads_elements {n : Nat} {f : Fin n → Leak α} {look : O → γ} {L : α → List γ}
    (h : ∀ i a, (f i).res = .ok a → (seen v (f i)).map look = L a) {w : Vector α n} (hw : (elements n f).res = .ok w) :
    (seen v (elements n f)).map look = w.toList.flatMap L := by
  induction n with
  | zero =>
    obtain rfl := Res.ok.inj hw
    rfl
  | succ n ih =>
    unfold elements at hw ⊢
    rw [res_bind] at hw
    obtain ⟨w0, hw0, hw⟩ := Res.bind_eq_ok.1 hw
    rw [res_bind] at hw
    obtain ⟨a, ha, hw⟩ := Res.bind_eq_ok.1 hw
    obtain rfl := Res.ok.inj hw
    rw [seen_bind hw0, seen_bind ha, List.map_append, List.map_append, ih (fun i => h i.castSucc) hw0, h _ a ha,
      Vector.toList_push, List.flatMap_append]
    simp [seen, op]

theorem reads_tabulate {n : Nat} {f : Fin n → Leak α} {look : O → γ} {L : α → List γ} (hl : ∀ n, v (.loop n) = none)
    (h : ∀ i a, (f i).res = .ok a → (seen v (f i)).map look = L a) {w : Vector α n} (hw : (tabulate n f).res = .ok w) :
    (seen v (tabulate n f)).map look = w.toList.flatMap L := by
  unfold tabulate at hw ⊢
  rw [res_bind, res_emit, Res.ok_bind] at hw
  rw [Silent.after (a := ()) (Silent.emit (hl n)) rfl]
  exact reads_elements h hw

end Rust.Leak

namespace MlKem
open Rust Rust.Leak Fips203 MlKem.FieldElement

variable [Build] (H : Sha3) {P : ParameterSet}

/-! ### What is read -/

/-- The entry of the noise table at a subscript -/
def entry (Eta : CbdSize) (i : Nat) : FieldElement := Eta.ONES.toList.getD i ⟨0⟩

theorem byte_decode_silent (D : Nat) (b : EncodedPolynomial D) : Silent subscripts (Leaky.byte_decode D b) := by
  refine Silent.bind (Silent.mapList (fun _ => rfl) (fun x => ?_) _) fun _ => Silent.op _
  refine Silent.bind (Silent.op _) fun _ => Silent.bind (Silent.op _) fun _ => Silent.mapList (fun _ => rfl) (fun y => ?_) _
  refine Silent.bind (Silent.op _) fun _ => Silent.bind (Silent.op _) fun _ => Silent.bind (Silent.op _) fun _ =>
    Silent.bind (Silent.op _) fun _ => Silent.bind (Silent.op _) fun _ => ?_
  split
  · exact Silent.bind (Silent.emit rfl) fun _ => Silent.bind (Silent.op _) fun _ => Silent.op _
  · exact Silent.op _

theorem reads_sample_cbd (Eta : CbdSize) (B : EncodedPolynomial Eta.SampleSize) {w : Polynomial}
    (hw : (Leaky.sample_cbd Eta B).res = .ok w) :
    (seen subscripts (Leaky.sample_cbd Eta B)).map (entry Eta) = w.coeffs.toList := by
  unfold Leaky.sample_cbd at hw ⊢
  rw [res_bind] at hw
  obtain ⟨vals, h1, hw⟩ := Res.bind_eq_ok.1 hw
  rw [res_bind] at hw
  obtain ⟨x, h2, hw⟩ := Res.bind_eq_ok.1 hw
  obtain rfl := Res.ok.inj hw
  have hs : Silent subscripts (Leaky.decode Eta.SampleSize B) :=
    Silent.bind (byte_decode_silent _ _) fun _ => Silent.op _
  rw [Silent.after hs h1, seen_bind h2, List.map_append]
  unfold Leak.mapVec at h2 ⊢
  rw [reads_tabulate (L := fun a => [a]) (look := entry Eta) (fun _ => rfl) ?_ h2]
  · simp [seen, op]
  · intro i a ha
    rw [res_bind, res_emit, Res.ok_bind, res_op] at ha
    rw [seen_bind (a := ()) rfl, List.map_append]
    obtain ⟨hi, rfl⟩ : ∃ h : (vals.coeffs[i]).val.toNat < Eta.OnesSize, Eta.ONES[(vals.coeffs[i]).val.toNat] = a := by
      unfold Rust.idx at ha
      split at ha
      · exact ⟨_, Res.ok.inj ha⟩
      · cases ha
    show [entry Eta _] ++ [] = _
    generalize (vals.coeffs[i]).val.toNat = k at *
    simp [entry, List.getD_eq_getElem?_getD, hi]

theorem reads_vecSampleCbd (K : Nat) (Eta : CbdSize) (sigma : B32) (n : UInt8) {w : PolynomialVector K}
    (hw : (Leaky.vecSampleCbd H K Eta sigma n).res = .ok w) :
    (seen subscripts (Leaky.vecSampleCbd H K Eta sigma n)).map (entry Eta) = w.polys.toList.flatMap fun q => q.coeffs.toList := by
  unfold Leaky.vecSampleCbd at hw ⊢
  rw [res_bind] at hw
  obtain ⟨x, h2, hw⟩ := Res.bind_eq_ok.1 hw
  obtain rfl := Res.ok.inj hw
  rw [seen_bind h2, List.map_append, reads_tabulate (L := fun q : Polynomial => q.coeffs.toList) (look := entry Eta) (fun _ => rfl) ?_ h2]
  · simp [seen, op]
  · intro i a ha
    rw [res_bind] at ha
    obtain ⟨n1, h3, ha⟩ := Res.bind_eq_ok.1 ha
    rw [res_bind] at ha
    obtain ⟨n2, h4, ha⟩ := Res.bind_eq_ok.1 ha
    rw [res_bind] at ha
    obtain ⟨o, h5, ha⟩ := Res.bind_eq_ok.1 ha
    have hp : Silent subscripts (Leaky.PRF H Eta sigma n2) := Silent.bind (Silent.emit rfl) fun _ => Silent.op _
    rw [Silent.after (Silent.op _) h3, Silent.after (Silent.op _) h4, Silent.after hp h5]
    exact reads_sample_cbd Eta o ha

/-- What is read during an encryption: the subscripts for the masking vector, for the noise of the first part of the ciphertext
and for the noise of its second part, in this order -/
theorem reads_encrypt (hV : P.Valid) (ek : EncryptionKey P) (m r : B32) :
    ∃ o1 o2 o3 rest, seen subscripts (Leaky.encrypt H ek m r) = o1 ++ (o2 ++ (o3 ++ rest)) ∧
      o1.map (entry P.Eta1) = (pv fun i : Fin P.K => SamplePolyCBD P.Eta1.toNat
        (Fips203.PRF H P.Eta1.toNat r.toList i.val)).polys.toList.flatMap (fun q => q.coeffs.toList) ∧
      o2.map (entry P.Eta2) = (pv fun i : Fin P.K => SamplePolyCBD P.Eta2.toNat
        (Fips203.PRF H P.Eta2.toNat r.toList (P.K + i.val))).polys.toList.flatMap (fun q => q.coeffs.toList) ∧
      o3.map (entry P.Eta2) = (polyVec (SamplePolyCBD P.Eta2.toNat (Fips203.PRF H P.Eta2.toNat r.toList (2 * P.K)))).toList := by
  have hk := hV.k
  have tK : (UInt8.ofNat P.K).toNat = P.K := by
    rw [UInt8.toNat_ofNat']; exact Nat.mod_eq_of_lt (by omega)
  have t2 : MInt.toNat (2 : UInt8) * MInt.toNat (UInt8.ofNat P.K) = 2 * P.K := by
    rw [toNat_u8, toNat_u8, tK]; rfl
  have t3 : MInt.toNat (MInt.ofNat (2 * P.K) : UInt8) = 2 * P.K :=
    toNat_ofNat_lt (α := UInt8) (by simp only [bits_u8]; omega)
  have h1 := (Leaky.vecSampleCbd_res H P.K P.Eta1 r 0).trans (pv_sample_cbd H P.Eta1 r (n0 := 0) rfl (by omega))
  have h2 := (Leaky.vecSampleCbd_res H P.K P.Eta2 r (UInt8.ofNat P.K)).trans
    (pv_sample_cbd H P.Eta2 r (n0 := P.K) tK (by omega))
  have h3 : (op (Rust.mul (2 : UInt8) (UInt8.ofNat P.K))).res = .ok (MInt.ofNat (2 * P.K) : UInt8) := by
    rw [res_op, mul_ok (by rw [t2]; simp only [bits_u8]; omega), t2]
  have h4 : (Leaky.PRF H P.Eta2 r (MInt.ofNat (2 * P.K))).res = .ok (MlKem.PRF H P.Eta2 r (MInt.ofNat (2 * P.K))) := rfl
  have hp : Silent subscripts (Leaky.PRF H P.Eta2 r (MInt.ofNat (2 * P.K))) := Silent.bind (Silent.emit rfl) fun _ => Silent.op _
  have h5 := (Leaky.sample_cbd_res P.Eta2 (MlKem.PRF H P.Eta2 r (MInt.ofNat (2 * P.K)))).trans (cbd_ok P.Eta2 _)
  unfold Leaky.encrypt
  rw [seen_bind h1, seen_bind h2, Silent.after (Silent.op _) h3, Silent.after hp h4, seen_bind h5]
  refine ⟨_, _, _, _, rfl, ?_, reads_vecSampleCbd H _ _ _ _ h2, ?_⟩
  · have := reads_vecSampleCbd H _ _ _ _ h1
    simpa only [Nat.zero_add] using this
  · have := reads_sample_cbd _ _ h5
    rwa [PRF_toList, ← toNat_u8, t3] at this

/-! ### Reading it -/

/-- The `i`-th polynomial of noise, from the subscripts -/
def noiseAt (Eta : CbdSize) (obs : List Nat) (i : Nat) : Poly := fun n => (entry Eta (obs.getD (256 * i + n.val) 0)).toZ

omit [Build] in
theorem flatMap_getElem? {α γ : Type} {L : α → List γ} (hL : ∀ a, (L a).length = 256) (l : List α) {i n : Nat} (hi : i < l.length)
    (hn : n < 256) : (l.flatMap L)[256 * i + n]? = (L l[i])[n]? := by
  induction l generalizing i with
  | nil => simp at hi
  | cons x l ih =>
    rw [List.flatMap_cons]
    cases i with
    | zero => rw [List.getElem?_append_left (by rw [hL]; omega)]; simp
    | succ i =>
      rw [List.getElem?_append_right (by rw [hL]; omega), hL, show 256 * (i + 1) + n - 256 = 256 * i + n by omega,
        ih (by simpa using hi)]
      rfl

omit [Build] in
theorem noiseAt_eq {Eta : CbdSize} {obs : List Nat} {i : Nat} {F : Poly}
    (h : ∀ n : Fin 256, (obs.map (entry Eta))[256 * i + n.val]? = some (ofZ (F n))) : noiseAt Eta obs i = F := by
  funext n
  have := h n
  rw [List.getElem?_map, Option.map_eq_some_iff] at this
  obtain ⟨x, h1, h2⟩ := this
  unfold noiseAt
  rw [List.getD_eq_getElem?_getD, h1, Option.getD_some, h2, toZ_ofZ]

omit [Build] in
theorem pv_getElem? {K : Nat} (F : Fin K → Poly) (i : Fin K) (n : Fin 256) :
    ((pv F).polys.toList.flatMap fun q => q.coeffs.toList)[256 * i.val + n.val]? = some (ofZ (F i n)) := by
  rw [flatMap_getElem? (fun q => by simp) _ (by simp) n.isLt]
  simp [pv]

/-- The message, computed from an encapsulation key, the subscripts and the ciphertext: subtract from the second part of the
ciphertext what the sender has added to the message. -/
noncomputable def readMessage (ek : EncapsulationKey P) (obs : List Nat) (c : P.EncodedCiphertext) : List UInt8 :=
  let t : Fin P.K → Poly := fun i n => (ek.ek_pke.t_hat.polys[i].coeffs[n]).toZ
  let y : Fin P.K → Poly := fun i => noiseAt P.Eta1 obs i
  let e2 : Poly := noiseAt P.Eta2 obs (2 * P.K)
  let v : Poly := fun n => Decompress P.Dv (ByteDecode P.Dv (c.toList.drop (P.Du * 32 * P.K)) n)
  ByteEncode 1 fun n => Compress 1 ((v - (NTTinv (∑ i, MultiplyNTTs (t i) (NTT (y i))) + e2)) n)

omit [Build] in
/-- Compression to four or five bits does not disturb a message bit. -/
theorem message_bit {d : Nat} (hd : d = 4 ∨ d = 5) (a : Zq) {b : Nat} (hb : b < 2) :
    Compress 1 (Decompress d (Compress d (a + Decompress 1 b)) - a) = b := by
  have key4 : ∀ (i j : Fin 58) (b : Fin 2), 58 * i.val + j.val < 3329 →
      (2 * (((3329 * ((16 * ((58 * i.val + j.val + (3329 * b.val + 1) / 2) % 3329) + 1664) / 3329 % 16) + 8) / 16 +
        (3329 - (58 * i.val + j.val))) % 3329) + 1664) / 3329 % 2 = b.val := by
    decide +kernel
  have key5 : ∀ (i j : Fin 58) (b : Fin 2), 58 * i.val + j.val < 3329 →
      (2 * (((3329 * ((32 * ((58 * i.val + j.val + (3329 * b.val + 1) / 2) % 3329) + 1664) / 3329 % 32) + 16) / 32 +
        (3329 - (58 * i.val + j.val))) % 3329) + 1664) / 3329 % 2 = b.val := by
    decide +kernel
  have ha : a.val < 3329 := ZMod.val_lt a
  have h1 : (Decompress 1 b).val = (3329 * b + 1) / 2 := Decompress_val (by omega) (by omega) hb
  have hs : (a + Decompress 1 b).val = (a.val + (3329 * b + 1) / 2) % 3329 := by rw [ZMod.val_add, h1]
  have hx : 58 * (a.val / 58) + a.val % 58 = a.val := Nat.div_add_mod _ 58
  have hsub : ∀ x : Zq, (x - a).val = (x.val + (3329 - a.val)) % 3329 := by
    intro x
    have e : x - a = ((x.val + (3329 - a.val) : Nat) : Zq) := by
      rw [Nat.cast_add, Nat.cast_sub (by omega), ZMod.natCast_zmod_val, ZMod.natCast_zmod_val]
      have : ((3329 : Nat) : Zq) = 0 := ZMod.natCast_self 3329
      rw [this, zero_sub, sub_eq_add_neg]
    rw [e, ZMod.val_natCast]
  have hlt := Compress_lt d (a + Decompress 1 b)
  rw [Compress_eq 1, hsub, Decompress_val (by omega) (by omega) hlt, Compress_eq d, hs]
  rcases hd with rfl | rfl
  · have := key4 ⟨a.val / 58, by omega⟩ ⟨a.val % 58, by omega⟩ ⟨b, hb⟩
    simp only [hx] at this
    exact this ha
  · have := key5 ⟨a.val / 58, by omega⟩ ⟨a.val % 58, by omega⟩ ⟨b, hb⟩
    simp only [hx] at this
    exact this ha

omit [Build] in
theorem read_bits {d : Nat} (hd : d = 4 ∨ d = 5) (A : Poly) (m : B32) :
    ByteEncode 1 (fun n => Compress 1 (((fun n => Decompress d (ByteDecode d (ByteEncode d fun n =>
      Compress d ((A + fun i => Decompress 1 (ByteDecode 1 m.toList i)) n)) n)) - A : Poly) n)) = m.toList := by
  have hdec := ByteDecode_ByteEncode (d := d) (by omega) (F := fun n =>
    Compress d ((A + fun i => Decompress 1 (ByteDecode 1 m.toList i)) n))
    (by intro n; unfold decMod; rw [if_neg (by omega)]; exact Compress_lt _ _) (by omega)
  rw [hdec]
  refine Eq.trans (congrArg (ByteEncode 1) (funext fun n => ?_))
    (ByteEncode_ByteDecode (d := 1) (by omega) (by omega) (B := m.toList) (by simp))
  exact message_bit hd (A n) (ByteDecode_lt_pow m.toList n)

theorem readMessage_ok (hV : P.Valid) (hdv : P.Dv = 4 ∨ P.Dv = 5) (t : Fin P.K → Poly) (rho h m r : B32) {obs : List Nat}
    (ho : ∃ rest, obs = seen subscripts (Leaky.encrypt H (ekOf t rho h).ek_pke m r) ++ rest) :
    readMessage (ekOf t rho h) obs (bytesOf (encT H P.toParams t rho.toList m.toList r.toList)) = m.toList := by
  obtain ⟨rest', rfl⟩ := ho
  obtain ⟨o1, o2, o3, rest, ho, r1, r2, r3⟩ := reads_encrypt H hV (ekOf t rho h).ek_pke m r
  rw [ho]
  have hlen : ∀ F : Fin P.K → Poly, ((pv F).polys.toList.flatMap fun q => q.coeffs.toList).length = 256 * P.K := by
    intro F
    rw [List.length_flatMap]
    simp [Nat.mul_comm]
  have l1 : (o1.map (entry P.Eta2)).length = 256 * P.K := by
    rw [List.length_map, ← List.length_map (f := entry P.Eta1), r1, hlen]
  have l1' : (o1.map (entry P.Eta1)).length = 256 * P.K := by rw [r1, hlen]
  have l2 : (o2.map (entry P.Eta2)).length = 256 * P.K := by rw [r2, hlen]
  have hy : ∀ i : Fin P.K, noiseAt P.Eta1 (o1 ++ (o2 ++ (o3 ++ rest)) ++ rest') i.val
      = SamplePolyCBD P.Eta1.toNat (Fips203.PRF H P.Eta1.toNat r.toList i.val) := by
    intro i
    refine noiseAt_eq fun n => ?_
    have hlt : 256 * i.val + n.val < 256 * P.K := by have := i.isLt; have := n.isLt; omega
    rw [List.append_assoc, List.map_append, List.getElem?_append_left (by omega), r1, pv_getElem?]
  have he : noiseAt P.Eta2 (o1 ++ (o2 ++ (o3 ++ rest)) ++ rest') (2 * P.K)
      = SamplePolyCBD P.Eta2.toNat (Fips203.PRF H P.Eta2.toNat r.toList (2 * P.K)) := by
    refine noiseAt_eq fun n => ?_
    have hn := n.isLt
    simp only [List.append_assoc]
    rw [List.map_append, List.getElem?_append_right (by omega), l1, List.map_append, List.getElem?_append_right (by omega), l2,
      List.map_append, r3, show 256 * (2 * P.K) + n.val - 256 * P.K - 256 * P.K = n.val by omega,
      List.getElem?_append_left (by simp)]
    simp
  have hc : (bytesOf (encT H P.toParams t rho.toList m.toList r.toList) : P.EncodedCiphertext).toList
      = encT H P.toParams t rho.toList m.toList r.toList := toList_bytesOf (encT_length H P.toParams t _ _ _)
  have ht : ∀ i : Fin P.K, (fun n : Fin 256 => ((ekOf t rho h).ek_pke.t_hat.polys[i].coeffs[n]).toZ) = t i := by
    intro i
    funext n
    simp [ekOf, nv]
  unfold readMessage
  dsimp only
  simp only [hy, ht]
  rw [he, hc]
  unfold encT
  dsimp only
  rw [List.drop_left' (by rw [encodeVec_length])]
  exact read_bits hdv _ m

/-- **C64** The subscripts of the noise tables give an encapsulation away: from the encapsulation key, the ciphertext and the
subscripts that are read during the encapsulation, in their order, one computes the message, and from it the shared key. -/
theorem C64_encapsulate_shows (hP : P = MlKem512Params ∨ P = MlKem768Params ∨ P = MlKem1024Params) {ek : EncapsulationKey P}
    (hk : EkReach H ek) {m : B32} {c : P.EncodedCiphertext} {K : SharedKey} (he : ek.encapsulate_deterministic H m = .ok (c, K)) :
    let found := readMessage ek (seen subscripts (Leaky.encapsulate_deterministic H ek m)) c
    found = m.toList ∧ (Fips203.G H (found ++ ek.h.toList)).1 = K.toList := by
  have hV : P.Valid := by rcases hP with rfl | rfl | rfl <;> exact Supported.valid (by first | exact supported_512 | exact supported_768 | exact supported_1024)
  have hdv : P.Dv = 4 ∨ P.Dv = 5 := by rcases hP with rfl | rfl | rfl <;> decide
  obtain ⟨t, rho, rfl⟩ := hk.shape H hV
  generalize Hash H (ekBytes t rho) = h at he ⊢
  have hseed : SeedOk H P.K rho.toList := by
    by_contra hn
    rw [encaps_div H hV t rho h m hn] at he
    cases he
  rw [encaps_ok H hV t rho h m hseed] at he
  obtain ⟨rfl, rfl⟩ := Prod.mk.inj (Res.ok.inj he)
  have key : readMessage (ekOf t rho h) (seen subscripts (Leaky.encapsulate_deterministic H (ekOf t rho h) m))
      (bytesOf (encT H P.toParams t rho.toList m.toList (Fips203.G H (m.toList ++ h.toList)).2)) = m.toList := by
    have hG : Silent subscripts (Leaky.G H [m.toList, h.toList]) := Silent.bind (Silent.emit rfl) fun _ => Silent.op _
    have hG2 : MlKem.G H [m.toList, h.toList] = (bytesOf (Fips203.G H (m.toList ++ h.toList)).1,
        bytesOf (Fips203.G H (m.toList ++ h.toList)).2) := G2 H _ _
    have hr : (bytesOf (Fips203.G H (m.toList ++ h.toList)).2 : B32).toList = (Fips203.G H (m.toList ++ h.toList)).2 :=
      toList_bytesOf (G_length H _).2
    have := readMessage_ok H hV hdv t rho h m (bytesOf (Fips203.G H (m.toList ++ h.toList)).2)
      (obs := seen subscripts (Leaky.encapsulate_deterministic H (ekOf t rho h) m)) ?_
    · rwa [hr] at this
    · unfold Leaky.encapsulate_deterministic
      rw [show (ekOf t rho h).h = h from rfl, Silent.after hG (Leaky.G_res H _), hG2]
      dsimp only
      have hE : (Leaky.encrypt H (ekOf t rho h).ek_pke m (bytesOf (Fips203.G H (m.toList ++ h.toList)).2)).res = .ok _ :=
        (Leaky.encrypt_res H _ _ _).trans (encrypt_ok H hV t rho m _ hseed)
      rw [seen_bind hE]
      exact ⟨_, rfl⟩
  exact ⟨key, by rw [key, toList_bytesOf (G_length H _).1]; rfl⟩

/-- There are such encapsulations: with the toy primitives every generated key encapsulates every message. -/
example (d z m : B32) : ∃ (ek : EncapsulationKey MlKem512Params) (c : _) (K : SharedKey), EkReach Toy.S ek ∧
    ek.encapsulate_deterministic Toy.S m = .ok (c, K) := by
  obtain ⟨dk, ek, -, -, h1, -⟩ := C01_keygen_is_fips203 Toy.S supported_512 d z (Toy.seedOk _ _)
  obtain ⟨eb, -, h2⟩ := C02_encaps_is_fips203 Toy.S supported_512 (.generated h1) m
  obtain ⟨c, K, h3, -⟩ := h2 (Toy.seedOk _ _)
  exact ⟨ek, c, K, .generated h1, h3⟩

/-! ### Key generation -/

/-- The secret vector, computed from the subscripts -/
noncomputable def readSecret (P : ParameterSet) (obs : List Nat) : DecryptionKey P :=
  { s_hat := nv fun i => NTT (noiseAt P.Eta1 obs i) }

theorem readSecret_ok {p : Params} (hP : Supported P p) {d z : B32} {dk : DecapsulationKey P} {ek : EncapsulationKey P}
    (hg : Kem.generate_deterministic H P d z = .ok (dk, ek)) (more : List Nat) :
    readSecret P (seen subscripts (Leaky.generate_deterministic H P d z) ++ more) = dk.dk_pke := by
  obtain rfl := hP.eq
  have hV := hP.valid
  have hk := hV.k
  have hg := (Leaky.generate_deterministic_res H d z).trans hg
  unfold Leaky.generate_deterministic at hg ⊢
  rw [res_bind] at hg
  obtain ⟨⟨dp, ep⟩, h1, hg⟩ := Res.bind_eq_ok.1 hg
  rw [res_bind] at hg
  obtain ⟨ek', -, hg⟩ := Res.bind_eq_ok.1 hg
  obtain ⟨rfl, rfl⟩ := Prod.mk.inj (Res.ok.inj hg)
  rw [seen_bind h1]
  unfold Leaky.generate at h1 ⊢
  rw [res_bind] at h1
  obtain ⟨⟨rho, sigma⟩, h2, h1⟩ := Res.bind_eq_ok.1 h1
  rw [res_bind] at h1
  obtain ⟨A, h3, h1⟩ := Res.bind_eq_ok.1 h1
  have h4 := (Leaky.vecSampleCbd_res H P.K P.Eta1 sigma 0).trans (pv_sample_cbd H P.Eta1 sigma (n0 := 0) rfl (by omega))
  rw [res_bind, h4, Res.ok_bind, res_bind] at h1
  obtain ⟨e, h5, h1⟩ := Res.bind_eq_ok.1 h1
  rw [res_bind, Leaky.vecNtt_res, pv_ntt, Res.ok_bind, res_bind] at h1
  obtain ⟨e_hat, h6, h1⟩ := Res.bind_eq_ok.1 h1
  rw [res_bind] at h1
  obtain ⟨As, h7, h1⟩ := Res.bind_eq_ok.1 h1
  rw [res_bind] at h1
  obtain ⟨t_hat, h8, h1⟩ := Res.bind_eq_ok.1 h1
  obtain ⟨rfl, rfl⟩ := Prod.mk.inj (Res.ok.inj h1)
  have hG : Silent subscripts (Leaky.G H [d.toList, [UInt8.ofNat P.K]]) := Silent.bind (Silent.emit rfl) fun _ => Silent.op _
  have hA : Silent subscripts (Leaky.sample_matrix H P.K rho false) := Silent.bind (Silent.emit rfl) fun _ => Silent.op _
  rw [Silent.after hG h2, Silent.after hA h3, seen_bind h4]
  have r1 := reads_vecSampleCbd H _ _ _ _ h4
  generalize seen subscripts (Leaky.vecSampleCbd H P.K P.Eta1 sigma 0) = o at r1 ⊢
  have hn : ∀ (rest : List Nat) (i : Fin P.K), noiseAt P.Eta1 (o ++ rest) i.val
      = SamplePolyCBD P.Eta1.toNat (Fips203.PRF H P.Eta1.toNat sigma.toList (0 + i.val)) := by
    intro rest i
    refine noiseAt_eq fun n => ?_
    have hlt : 256 * i.val + n.val < (o.map (entry P.Eta1)).length := by
      rw [r1, List.length_flatMap]
      have := i.isLt
      have := n.isLt
      simp
      omega
    rw [List.map_append, List.getElem?_append_left hlt, r1, pv_getElem?]
  unfold readSecret
  simp only [List.append_assoc, hn]

/-- **C64** The subscripts of the noise tables give a key away when it is made: from those that are read during key generation,
in their order, one computes the secret vector. -/
theorem C64_generate_shows {p : Params} (hP : Supported P p) {d z : B32} {dk : DecapsulationKey P} {ek : EncapsulationKey P}
    (hg : Kem.generate_deterministic H P d z = .ok (dk, ek)) :
    readSecret P (seen subscripts (Leaky.generate_deterministic H P d z)) = dk.dk_pke := by
  have := readSecret_ok H hP hg []
  rwa [List.append_nil] at this

/-- Such runs exist. -/
example (d z : B32) : ∃ dk ek, Kem.generate_deterministic Toy.S MlKem512Params d z = .ok (dk, ek) := by
  obtain ⟨dk, ek, -, -, h1, -⟩ := C01_keygen_is_fips203 Toy.S supported_512 d z (Toy.seedOk _ _)
  exact ⟨dk, ek, h1⟩

/-! ### Cache lines -/

omit [Build] in
theorem seen_lines {α : Type} (o : Nat) (x : Leak α) :
    seen (lines o) x = (seen subscripts x).map fun i => (o + 2 * i) / 64 := by
  unfold seen
  rw [List.map_filterMap]
  congr 1
  funext e
  cases e <;> rfl

/-- **C64** As `C64_cache_lines`, for encapsulation and key generation: ML-KEM-768 and ML-KEM-1024 look the same, to who sees cache
lines, for all messages and for all seeds that give the same public seed. -/
theorem C64_cache_lines_senders (hP : P = MlKem768Params ∨ P = MlKem1024Params) {o : Nat} (ho : o % 64 ≤ 32) :
    (∀ {ek ek' : EncapsulationKey P} {m m' : B32} {r r' : P.EncodedCiphertext × SharedKey}, ek.ek_pke.rho = ek'.ek_pke.rho →
      ek.encapsulate_deterministic H m = .ok r → ek'.encapsulate_deterministic H m' = .ok r' →
      seen (cacheLine o) (Leaky.encapsulate_deterministic H ek m) = seen (cacheLine o) (Leaky.encapsulate_deterministic H ek' m')) ∧
    ∀ {d z d' z' : B32} {dk dk' : DecapsulationKey P} {ek ek' : EncapsulationKey P},
      Kem.generate_deterministic H P d z = .ok (dk, ek) → Kem.generate_deterministic H P d' z' = .ok (dk', ek') →
      ek.ek_pke.rho = ek'.ek_pke.rho →
      seen (cacheLine o) (Leaky.generate_deterministic H P d z) = seen (cacheLine o) (Leaky.generate_deterministic H P d' z') := by
  obtain ⟨h1, h2⟩ := cacheLine_hides ho
  rcases hP with rfl | rfl
  · exact ⟨fun hr he he' => C64_encapsulate H _ supported_768 (by decide) (by decide) h1 h2 h2 hr he he',
      fun hg hg' hr => C64_generate H _ supported_768 (by decide) (by decide) h1 h2 h2 hg hg' hr⟩
  · exact ⟨fun hr he he' => C64_encapsulate H _ supported_1024 (by decide) (by decide) h1 h2 h2 hr he he',
      fun hg hg' hr => C64_generate H _ supported_1024 (by decide) (by decide) h1 h2 h2 hg hg' hr⟩

/-- Key generations that it applies to: those with the same first seed -/
example (d z z' : B32) : ∃ dk dk' ek ek', Kem.generate_deterministic Toy.S MlKem768Params d z = .ok (dk, ek) ∧
    Kem.generate_deterministic Toy.S MlKem768Params d z' = .ok (dk', ek') ∧
    seen (cacheLine 0) (Leaky.generate_deterministic Toy.S MlKem768Params d z)
      = seen (cacheLine 0) (Leaky.generate_deterministic Toy.S MlKem768Params d z') := by
  obtain ⟨⟨dk, ek⟩, hg⟩ := (C04_generate_outcome Toy.S supported_768 d z).2.2 (Toy.seedOk _ _)
  obtain ⟨⟨dk', ek'⟩, hg'⟩ := (C04_generate_outcome Toy.S supported_768 d z').2.2 (Toy.seedOk _ _)
  refine ⟨dk, dk', ek, ek', hg, hg', (C64_cache_lines_senders Toy.S (.inl rfl) (by decide)).2 hg hg' ?_⟩
  obtain ⟨e1, e2⟩ := Leaky.generate_rho Toy.S hg
  obtain ⟨e1', e2'⟩ := Leaky.generate_rho Toy.S hg'
  have e1 : ek = dk.ek := e1
  have e1' : ek' = dk'.ek := e1'
  rw [e1, e1']
  exact e2.trans e2'.symm

omit [Build] in
/-- In the table for η = 3, no entry of the first half is -3, and none of the second half is 3. -/
theorem half_table (i : Nat) : (i < 32 → (entry .U3 i).toZ ≠ -3) ∧ (¬ i < 32 → (entry .U3 i).toZ ≠ 3) := by
  by_cases hi : i < 64
  · have key : ∀ i : Fin 64, (i.val < 32 → (entry .U3 i.val).toZ ≠ -3) ∧ (¬ i.val < 32 → (entry .U3 i.val).toZ ≠ 3) := by
      decide +kernel
    exact key ⟨i, hi⟩
  · have he : entry .U3 i = ⟨0⟩ := by
      unfold entry
      rw [List.getD_eq_getElem?_getD, List.getElem?_eq_none, Option.getD_none]
      rw [Vector.length_toList]
      show 64 ≤ i
      omega
    rw [he]
    exact ⟨fun h => absurd h (by omega), fun _ => by decide⟩

/-- **C64** ML-KEM-512, which the claim about cache lines leaves out, does show its key to who sees 64-byte lines: with the table at
the beginning of a line, the lines that are read during key generation tell of every coefficient of the secret vector that it is
not -3 or that it is not 3. -/
theorem C64_cache_lines_512 {o : Nat} (ho : o % 64 = 0) {d z : B32} {dk : DecapsulationKey MlKem512Params}
    {ek : EncapsulationKey MlKem512Params} (hg : Kem.generate_deterministic H MlKem512Params d z = .ok (dk, ek)) :
    ∃ s : Fin 2 → Poly, dk.dk_pke = { s_hat := nv fun i => NTT (s i) } ∧ ∀ (i : Fin 2) (n : Fin 256),
      let line := (seen (lines o) (Leaky.generate_deterministic H MlKem512Params d z)).getD (256 * i.val + n.val) (o / 64)
      (line = o / 64 → s i n ≠ -3) ∧ (line ≠ o / 64 → s i n ≠ 3) := by
  refine ⟨fun i => noiseAt .U3 (seen subscripts (Leaky.generate_deterministic H MlKem512Params d z)) i.val,
    (C64_generate_shows H supported_512 hg).symm, fun i n => ?_⟩
  rw [seen_lines]
  unfold noiseAt
  generalize seen subscripts (Leaky.generate_deterministic H MlKem512Params d z) = obs
  have hd : (obs.map fun i => (o + 2 * i) / 64).getD (256 * i.val + n.val) (o / 64)
      = (o + 2 * obs.getD (256 * i.val + n.val) 0) / 64 := by
    rw [List.getD_eq_getElem?_getD, List.getD_eq_getElem?_getD, List.getElem?_map]
    cases obs[256 * i.val + n.val]? <;> rfl
  dsimp only
  rw [hd]
  obtain ⟨h1, h2⟩ := half_table (obs.getD (256 * i.val + n.val) 0)
  exact ⟨fun h => h1 (by omega), fun h => h2 (by omega)⟩

/-- Both occur: with the table at the beginning of a line, entry 31 lies in the first line and entry 32 in the next. -/
example : lines 0 (.table 64 31) = some 0 ∧ lines 0 (.table 64 32) = some 1 ∧
    (entry .U3 7).toZ = 3 ∧ (entry .U3 56).toZ = -3 := by decide +kernel

end MlKem
