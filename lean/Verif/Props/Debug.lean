import Verif.Model.Debug
import Mathlib.Data.List.Forall2
/-! C96: what printing a key with `{:?}` shows. -/
namespace Rust.Fmt

/-- Does not go on with a digit -/
def Stop (x : List Char) : Prop := ∀ c ∈ x.head?, c.isDigit = false

/-- Two texts that can be told apart from what follows them -/
def Cancel (t t' : List Char) : Prop := ∀ x y, Stop x → Stop y → t ++ x = t' ++ y → t = t' ∧ x = y

theorem take_digits {t x : List Char} (ht : ∀ c ∈ t, c.isDigit = true) (hx : Stop x) : (t ++ x).takeWhile Char.isDigit = t := by
  induction t with
  | nil =>
    cases x with
    | nil => rfl
    | cons c x => simp [hx c (by simp)]
  | cons c t ih => simp [ht c (by simp), ih fun d hd => ht d (by simp [hd])]

theorem cancel_num (a b : Nat) : Cancel (Nat.toDigits 10 a) (Nat.toDigits 10 b) := by
  intro x y hx hy h
  have ha : ∀ n, ∀ c ∈ Nat.toDigits 10 n, c.isDigit = true := fun n c hc =>
    Nat.isDigit_of_mem_toDigits (by decide) (by decide) hc
  have e := congrArg (List.takeWhile Char.isDigit) h
  rw [take_digits (ha a) hx, take_digits (ha b) hy] at e
  rw [e] at h
  exact ⟨e, List.append_cancel_left h⟩

theorem num_inj {a b : Nat} (h : Nat.toDigits 10 a = Nat.toDigits 10 b) : a = b := by
  rw [← Nat.ofDigitChars_ten_toDigits (n := a), h, Nat.ofDigitChars_ten_toDigits]

theorem cancel_alt {n : Nat} {l l' : List (List Char)} (h : List.Forall₂ Cancel l l') : ∀ x y,
    l.flatMap (fun t => pad n ++ (t ++ ",\n".toList)) ++ x = l'.flatMap (fun t => pad n ++ (t ++ ",\n".toList)) ++ y →
      l = l' ∧ x = y := by
  induction h with
  | nil => exact fun x y h => ⟨rfl, h⟩
  | cons ht _ ih =>
    intro x y h
    simp only [List.flatMap_cons, List.append_assoc] at h
    obtain ⟨rfl, h2⟩ := ht _ _ (by simp [Stop]) (by simp [Stop]) (List.append_cancel_left h)
    obtain ⟨rfl, rfl⟩ := ih x y (List.append_cancel_left h2)
    exact ⟨rfl, rfl⟩

theorem cancel_sep {l l' : List (List Char)} (h : List.Forall₂ Cancel l l') : ∀ x y, Stop x → Stop y →
    ", ".toList.intercalate l ++ x = ", ".toList.intercalate l' ++ y → l = l' ∧ x = y := by
  induction h with
  | nil => exact fun x y _ _ h => ⟨rfl, h⟩
  | @cons t t' l l' ht hl ih =>
    intro x y hx hy h
    cases hl with
    | nil =>
      simp only [List.intercalate_singleton] at h
      obtain ⟨rfl, rfl⟩ := ht x y hx hy h
      exact ⟨rfl, rfl⟩
    | @cons u u' k k' hu hk =>
      simp only [List.intercalate_cons_cons, List.append_assoc] at h
      obtain ⟨rfl, h2⟩ := ht _ _ (by simp [Stop]) (by simp [Stop]) h
      obtain ⟨e, rfl⟩ := ih x y hx hy (List.append_cancel_left h2)
      rw [e]
      exact ⟨rfl, rfl⟩

theorem cancel_entries {gap : List Char} {alt : Bool} {n : Nat} {l l' : List (List Char)} (h : List.Forall₂ Cancel l l')
    (x y : List Char) (hx : Stop (gap ++ x)) (hy : Stop (gap ++ y))
    (e : entries gap alt n l ++ x = entries gap alt n l' ++ y) : l = l' ∧ x = y := by
  unfold entries at e
  cases alt with
  | true =>
    simp only [if_true, List.cons_append, List.append_assoc, List.cons.injEq, true_and] at e
    obtain ⟨rfl, e2⟩ := cancel_alt h _ _ e
    exact ⟨rfl, List.append_cancel_left e2⟩
  | false =>
    simp only [Bool.false_eq_true, if_false, List.append_assoc] at e
    obtain ⟨rfl, e2⟩ := cancel_sep h _ _ hx hy (List.append_cancel_left e)
    exact ⟨rfl, List.append_cancel_left e2⟩

/-- The text shows the value, and where it ends. -/
def Shows {α : Type} (p : α → Text) : Prop :=
  ∀ alt n a b, Cancel (p a alt n) (p b alt n) ∧ (p a alt n = p b alt n → a = b)

theorem Shows.num : Shows num := fun _ _ _ _ => ⟨cancel_num _ _, num_inj⟩

theorem Shows.comp {α β : Type} {p : β → Text} (h : Shows p) {f : α → β} (hf : Function.Injective f) : Shows fun a => p (f a) :=
  fun alt n a b => ⟨(h alt n _ _).1, fun e => hf ((h alt n _ _).2 e)⟩

theorem cancel_tuple {name : String} {l l' : List Text} {alt : Bool} {n : Nat}
    (h : List.Forall₂ (fun t t' : Text => ∀ alt n, Cancel (t alt n) (t' alt n)) l l') :
    Cancel (tuple name l alt n) (tuple name l' alt n) ∧ (tuple name l alt n = tuple name l' alt n →
      (l.map fun t => t alt (if alt then n + 1 else n)) = l'.map fun t => t alt (if alt then n + 1 else n)) := by
  have h' : List.Forall₂ Cancel (l.map fun t => t alt (if alt then n + 1 else n))
      (l'.map fun t => t alt (if alt then n + 1 else n)) := by
    rw [List.forall₂_map_left_iff, List.forall₂_map_right_iff]
    exact h.imp fun _ _ g => g _ _
  have key : ∀ x y, tuple name l alt n ++ x = tuple name l' alt n ++ y →
      (l.map fun t => t alt (if alt then n + 1 else n)) = (l'.map fun t => t alt (if alt then n + 1 else n)) ∧ x = y := by
    intro x y e
    unfold tuple at e
    simp only [List.append_assoc, List.cons_append, List.nil_append] at e
    have e2 := List.append_cancel_left e
    simp only [List.cons.injEq, true_and] at e2
    obtain ⟨e3, e4⟩ := cancel_entries h' _ _ (by simp [Stop]) (by simp [Stop]) e2
    exact ⟨e3, by simpa using e4⟩
  refine ⟨fun x y _ _ e => ?_, fun e => (key [] [] (by rw [e])).1⟩
  obtain ⟨e1, rfl⟩ := key x y e
  exact ⟨List.append_cancel_right e, rfl⟩

theorem cancel_list {l l' : List Text} {alt : Bool} {n : Nat}
    (h : List.Forall₂ (fun t t' : Text => ∀ alt n, Cancel (t alt n) (t' alt n)) l l') :
    Cancel (list l alt n) (list l' alt n) ∧ (list l alt n = list l' alt n →
      (l.map fun t => t alt (if alt then n + 1 else n)) = l'.map fun t => t alt (if alt then n + 1 else n)) := by
  have h' : List.Forall₂ Cancel (l.map fun t => t alt (if alt then n + 1 else n))
      (l'.map fun t => t alt (if alt then n + 1 else n)) := by
    rw [List.forall₂_map_left_iff, List.forall₂_map_right_iff]
    exact h.imp fun _ _ g => g _ _
  have key : ∀ x y, list l alt n ++ x = list l' alt n ++ y →
      (l.map fun t => t alt (if alt then n + 1 else n)) = (l'.map fun t => t alt (if alt then n + 1 else n)) ∧ x = y := by
    intro x y e
    unfold list at e
    simp only [List.append_assoc, List.cons_append, List.nil_append, List.cons.injEq, true_and] at e
    obtain ⟨e3, e4⟩ := cancel_entries h' _ _ (by simp [Stop]) (by simp [Stop]) e
    exact ⟨e3, by simpa using e4⟩
  refine ⟨fun x y _ _ e => ?_, fun e => (key [] [] (by rw [e])).1⟩
  obtain ⟨e1, rfl⟩ := key x y e
  exact ⟨List.append_cancel_right e, rfl⟩

theorem cancel_field {s : List Char} {t t' : List Char} (h : Cancel t t') : Cancel (s ++ t) (s ++ t') := by
  intro x y hx hy e
  simp only [List.append_assoc] at e
  obtain ⟨rfl, rfl⟩ := h x y hx hy (List.append_cancel_left e)
  exact ⟨rfl, rfl⟩

theorem cancel_struct {name : String} {l l' : List (String × Text)} {alt : Bool} {n : Nat}
    (h : List.Forall₂ (fun f f' : String × Text => f.1 = f'.1 ∧ ∀ alt n, Cancel (f.2 alt n) (f'.2 alt n)) l l') :
    Cancel (struct name l alt n) (struct name l' alt n) ∧ (struct name l alt n = struct name l' alt n →
      (l.map fun f => f.2 alt (if alt then n + 1 else n)) = l'.map fun f => f.2 alt (if alt then n + 1 else n)) := by
  have h' : List.Forall₂ Cancel (l.map fun f => f.1.toList ++ ": ".toList ++ f.2 alt (if alt then n + 1 else n))
      (l'.map fun f => f.1.toList ++ ": ".toList ++ f.2 alt (if alt then n + 1 else n)) := by
    rw [List.forall₂_map_left_iff, List.forall₂_map_right_iff]
    exact h.imp fun _ _ g => by rw [g.1]; exact cancel_field (g.2 _ _)
  have h'' : (l.map fun f => f.1.toList ++ ": ".toList ++ f.2 alt (if alt then n + 1 else n)) =
      (l'.map fun f => f.1.toList ++ ": ".toList ++ f.2 alt (if alt then n + 1 else n)) →
      (l.map fun f => f.2 alt (if alt then n + 1 else n)) = l'.map fun f => f.2 alt (if alt then n + 1 else n) := by
    clear h'
    induction h with
    | nil => exact fun _ => rfl
    | cons g _ ih =>
      intro e
      simp only [List.map_cons, List.cons.injEq, g.1] at e ⊢
      exact ⟨List.append_cancel_left e.1, ih e.2⟩
  have key : ∀ x y, struct name l alt n ++ x = struct name l' alt n ++ y →
      (l.map fun f => f.2 alt (if alt then n + 1 else n)) = (l'.map fun f => f.2 alt (if alt then n + 1 else n)) ∧ x = y := by
    intro x y e
    unfold struct at e
    simp only [List.append_assoc, List.cons_append, List.nil_append] at e
    have e2 := List.append_cancel_left e
    simp only [List.cons.injEq, true_and] at e2
    simp only [← List.append_assoc] at e2 h' h''
    obtain ⟨e3, e4⟩ := cancel_entries h' _ _ (by simp [Stop]) (by simp [Stop]) e2
    exact ⟨h'' e3, by simpa using e4⟩
  refine ⟨fun x y _ _ e => ?_, fun e => (key [] [] (by rw [e])).1⟩
  obtain ⟨e1, rfl⟩ := key x y e
  exact ⟨List.append_cancel_right e, rfl⟩

end Rust.Fmt

namespace MlKem.Debug
open Rust Rust.Fmt
variable (array : Option String)

theorem shows_tuple {α : Type} {p : α → Text} (h : Shows p) (name : String) : Shows fun a => tuple name [p a] := by
  intro alt n a b
  have hc := cancel_tuple (name := name) (l := [p a]) (l' := [p b]) (alt := alt) (n := n)
    (.cons (fun alt n => (h alt n a b).1) .nil)
  refine ⟨hc.1, fun e => ?_⟩
  have e2 := hc.2 e
  simp only [List.map_cons, List.map_nil, List.cons.injEq, and_true] at e2
  exact (h _ _ _ _).2 e2

theorem shows_list {α : Type} {k : Nat} {item : α → Text} (h : Shows item) :
    Shows fun v : Vector α k => list (v.toList.map item) := by
  intro alt n a b
  have hf : ∀ l l' : List α, l.length = l'.length → List.Forall₂ (fun t t' : Text => ∀ alt n, Cancel (t alt n) (t' alt n))
      (l.map item) (l'.map item) := by
    intro l
    induction l with
    | nil => intro l' e; cases l' with
      | nil => exact .nil
      | cons => simp at e
    | cons x l ih => intro l' e; cases l' with
      | nil => simp at e
      | cons y l' => exact .cons (fun alt n => (h alt n x y).1) (ih l' (by simpa using e))
  have hc := cancel_list (alt := alt) (n := n) (hf a.toList b.toList (by simp))
  refine ⟨hc.1, fun e => ?_⟩
  have e2 := hc.2 e
  rw [List.map_map, List.map_map] at e2
  exact Vector.toList_inj.1 (List.map_injective_iff.2 (fun x y g => (h _ _ _ _).2 g) e2)

theorem shows_arr {α : Type} {k : Nat} {item : α → Text} (h : Shows item) : Shows fun v : Vector α k => arr array item v := by
  unfold arr
  cases array with
  | none => exact shows_list h
  | some name => exact shows_tuple (shows_list h) name

theorem shows_bytes {k : Nat} : Shows fun b : Bytes k => bytes array b :=
  shows_arr array (Shows.num.comp fun _ _ e => UInt8.toNat_inj.1 e)

theorem shows_fieldElement : Shows fieldElement :=
  shows_tuple (p := fun x : FieldElement => num x.val.toNat) (Shows.num.comp fun a b e => by
    obtain ⟨a⟩ := a
    obtain ⟨b⟩ := b
    exact congrArg FieldElement.mk (UInt16.toNat_inj.1 e)) "FieldElement"

theorem shows_nttPolynomial : Shows (nttPolynomial array) :=
  (shows_tuple (shows_arr array shows_fieldElement) "NttPolynomial").comp (f := NttPolynomial.coeffs) fun a b e => by
    cases a; cases b; exact congrArg _ e

theorem shows_nttVector {K : Nat} : Shows fun v : NttVector K => nttVector array v :=
  (shows_tuple (shows_arr array (shows_nttPolynomial array)) "NttVector").comp (f := NttVector.polys) fun a b e => by
    cases a; cases b; exact congrArg _ e

variable {P : ParameterSet}

theorem shows_decryptionKey : Shows fun dk : DecryptionKey P => decryptionKey array dk := by
  intro alt n a b
  have hc := cancel_struct (name := "DecryptionKey") (alt := alt) (n := n)
    (l := [("s_hat", nttVector array a.s_hat)]) (l' := [("s_hat", nttVector array b.s_hat)])
    (.cons ⟨rfl, fun alt n => (shows_nttVector array alt n _ _).1⟩ .nil)
  refine ⟨hc.1, fun e => ?_⟩
  have e2 := hc.2 e
  simp only [List.map_cons, List.map_nil, List.cons.injEq, and_true] at e2
  obtain ⟨a⟩ := a
  obtain ⟨b⟩ := b
  exact congrArg _ ((shows_nttVector array _ _ _ _).2 e2)

theorem shows_encryptionKey : Shows fun ek : EncryptionKey P => encryptionKey array ek := by
  intro alt n a b
  have hc := cancel_struct (name := "EncryptionKey") (alt := alt) (n := n)
    (l := [("t_hat", nttVector array a.t_hat), ("rho", bytes array a.rho)])
    (l' := [("t_hat", nttVector array b.t_hat), ("rho", bytes array b.rho)])
    (.cons ⟨rfl, fun alt n => (shows_nttVector array alt n _ _).1⟩ <|
      .cons ⟨rfl, fun alt n => (shows_bytes array alt n _ _).1⟩ .nil)
  refine ⟨hc.1, fun e => ?_⟩
  have e2 := hc.2 e
  simp only [List.map_cons, List.map_nil, List.cons.injEq, and_true] at e2
  obtain ⟨a, a'⟩ := a
  obtain ⟨b, b'⟩ := b
  obtain rfl := (shows_nttVector array _ _ _ _).2 e2.1
  obtain rfl := (shows_bytes array _ _ _ _).2 e2.2
  rfl

theorem shows_encapsulationKey : Shows fun ek : EncapsulationKey P => encapsulationKey array ek := by
  intro alt n a b
  have hc := cancel_struct (name := "EncapsulationKey") (alt := alt) (n := n)
    (l := [("ek_pke", encryptionKey array a.ek_pke), ("h", bytes array a.h)])
    (l' := [("ek_pke", encryptionKey array b.ek_pke), ("h", bytes array b.h)])
    (.cons ⟨rfl, fun alt n => (shows_encryptionKey array alt n _ _).1⟩ <|
      .cons ⟨rfl, fun alt n => (shows_bytes array alt n _ _).1⟩ .nil)
  refine ⟨hc.1, fun e => ?_⟩
  have e2 := hc.2 e
  simp only [List.map_cons, List.map_nil, List.cons.injEq, and_true] at e2
  obtain ⟨a, a'⟩ := a
  obtain ⟨b, b'⟩ := b
  obtain rfl := (shows_encryptionKey array _ _ _ _).2 e2.1
  obtain rfl := (shows_bytes array _ _ _ _).2 e2.2
  rfl

theorem shows_decapsulationKey : Shows fun dk : DecapsulationKey P => decapsulationKey array dk := by
  intro alt n a b
  have hc := cancel_struct (name := "DecapsulationKey") (alt := alt) (n := n)
    (l := [("dk_pke", decryptionKey array a.dk_pke), ("ek", encapsulationKey array a.ek), ("z", bytes array a.z)])
    (l' := [("dk_pke", decryptionKey array b.dk_pke), ("ek", encapsulationKey array b.ek), ("z", bytes array b.z)])
    (.cons ⟨rfl, fun alt n => (shows_decryptionKey array alt n _ _).1⟩ <|
      .cons ⟨rfl, fun alt n => (shows_encapsulationKey array alt n _ _).1⟩ <|
      .cons ⟨rfl, fun alt n => (shows_bytes array alt n _ _).1⟩ .nil)
  refine ⟨hc.1, fun e => ?_⟩
  have e2 := hc.2 e
  simp only [List.map_cons, List.map_nil, List.cons.injEq, and_true] at e2
  obtain ⟨a, a', a''⟩ := a
  obtain ⟨b, b', b''⟩ := b
  obtain rfl := (shows_decryptionKey array _ _ _ _).2 e2.1
  obtain rfl := (shows_encapsulationKey array _ _ _ _).2 e2.2.1
  obtain rfl := (shows_bytes array _ _ _ _).2 e2.2.2
  rfl

/-- **C96** Keys print alike, in either form, exactly if they are equal. -/
theorem C96_debug_faithful (alt : Bool) :
    (∀ dk dk' : DecapsulationKey P, decapsulationKey array dk alt 0 = decapsulationKey array dk' alt 0 ↔ dk = dk') ∧
    (∀ ek ek' : EncapsulationKey P, encapsulationKey array ek alt 0 = encapsulationKey array ek' alt 0 ↔ ek = ek') :=
  ⟨fun _ _ => ⟨(shows_decapsulationKey array alt 0 _ _).2, fun e => by rw [e]⟩,
    fun _ _ => ⟨(shows_encapsulationKey array alt 0 _ _).2, fun e => by rw [e]⟩⟩

/-- **C96** So a log with a decapsulation key in it is the key: whatever is written around it, whoever finds where it
starts can decapsulate everything that was sent to it. -/
theorem C96_debug_reveals [Build] (H : Sha3) (alt : Bool) :
    ∃ recover : List Char → P.EncodedCiphertext → Res SharedKey,
      ∀ (dk : DecapsulationKey P) (rest : List Char) (c : P.EncodedCiphertext), (∀ d ∈ rest.head?, d.isDigit = false) →
        recover (decapsulationKey array dk alt 0 ++ rest) c = dk.decapsulate H c := by
  classical
  refine ⟨fun log c => if h : ∃ dk : DecapsulationKey P, ∃ rest, Stop rest ∧ log = decapsulationKey array dk alt 0 ++ rest
    then h.choose.decapsulate H c else .panic, fun dk rest c hr => ?_⟩
  have h : ∃ dk' : DecapsulationKey P, ∃ rest', Stop rest' ∧
      decapsulationKey array dk alt 0 ++ rest = decapsulationKey array dk' alt 0 ++ rest' := ⟨dk, rest, hr, rfl⟩
  dsimp only
  rw [dif_pos h]
  obtain ⟨rest', hr', e⟩ := h.choose_spec
  have := (shows_decapsulationKey array alt 0 _ _).2 ((shows_decapsulationKey array alt 0 _ _).1 _ _ hr hr' e).1
  rw [← this]

end MlKem.Debug

namespace MlKem.Debug
open Rust Rust.Fmt

/-- What is printed, in both forms -/
example : String.ofList (fieldElement ⟨3328⟩ false 0) = "FieldElement(3328)" := by decide +kernel
example : String.ofList (fieldElement ⟨3328⟩ true 1) = "FieldElement(\n        3328,\n    )" := by decide +kernel
example : String.ofList (bytes (some "Array") (#v[7, 0, 255] : Bytes 3) false 0) = "Array([7, 0, 255])" := by decide +kernel
example : String.ofList (struct "EncryptionKey" [("t_hat", num 5), ("rho", bytes none (#v[1] : Bytes 1))] false 0) =
    "EncryptionKey { t_hat: 5, rho: [1] }" := by decide +kernel
example : String.ofList (struct "EncryptionKey" [("t_hat", num 5), ("rho", bytes none (#v[1] : Bytes 1))] true 0) =
    "EncryptionKey {\n    t_hat: 5,\n    rho: [\n        1,\n    ],\n}" := by decide +kernel

/-- Two keys that differ in one coefficient of the secret print differently. -/
example (ek : EncapsulationKey MlKem512Params) (z : B32) :
    decapsulationKey none (P := MlKem512Params) ⟨⟨⟨Vector.replicate _ ⟨Vector.replicate _ ⟨7⟩⟩⟩⟩, ek, z⟩ false 0 ≠
      decapsulationKey none (P := MlKem512Params) ⟨⟨⟨Vector.replicate _ ⟨(Vector.replicate _ ⟨7⟩).set 3 ⟨8⟩⟩⟩⟩, ek, z⟩ false 0 := by
  intro h
  have h2 := ((C96_debug_faithful none false).1 _ _).1 h
  have h3 := congrArg (fun dk : DecapsulationKey MlKem512Params =>
    ((dk.dk_pke.s_hat.polys[0]'(by decide)).coeffs[3]'(by decide)).val) h2
  simp at h3

end MlKem.Debug
