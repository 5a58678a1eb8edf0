import Verif.Address.Parse
/-!
# Byron addresses: round trip, base58 prefix
-/
set_option autoImplicit false

namespace Cardano.Byron
open Cbor Cardano.Spec

theorem encHead_length_le (t : UInt8) (n : UInt64) : (encHead t n).length ≤ 9 := by
  unfold encHead; repeat' split
  all_goals simp [beBytes_length]

/-- Attribute pairs as items. -/
def attrPairs (a : ByronAttributes) : List (Item × Item) :=
  (if a.payload.length = 0 then [] else [(.uint 1, .bytes a.payload)]) ++
    (match a.network with
     | none => []
     | some n => [(.uint 2, .uint n.toNat)])

theorem attr_enc (a : ByronAttributes) (h : a.payload.length < 2 ^ 63) : Enc (attrBytes a) (.map (flatPairs (attrPairs a))) := by
  unfold attrBytes attrPairs
  have hu : ∀ n : UInt8, Enc (encUint (UInt64.ofNat n.toNat)) (.uint n.toNat) := by
    intro n
    have := enc_uint (UInt64.ofNat n.toNat)
    rwa [ofNat64 _ (by have := UInt8.toNat_lt n; omega)] at this
  have h1 : Enc (encUint 1) (.uint 1) := enc_uint 1
  have h2 : Enc (encUint 2) (.uint 2) := enc_uint 2
  have hb := enc_bytes a.payload (by omega)
  apply enc_map
  · split
    · cases a.network with
      | none => exact .nil
      | some n => exact .cons ⟨h2, hu n⟩ .nil
    · cases a.network with
      | none => exact .cons ⟨h1, hb⟩ .nil
      | some n => exact .cons ⟨h1, hb⟩ (.cons ⟨h2, hu n⟩ .nil)
  · split <;> cases a.network <;> simp

theorem attr_dec (a : ByronAttributes) : toAttrsPairs (flatPairs (attrPairs a)) ⟨[], none⟩ = .ok a := by
  obtain ⟨p, n⟩ := a
  unfold attrPairs
  by_cases hp : p.length = 0
  · have : p = [] := List.length_eq_zero_iff.1 hp
    subst this
    cases n with
    | none => rfl
    | some n =>
      have : n.toNat ≤ 255 := by have := UInt8.toNat_lt n; omega
      simp [flatPairs, toAttrsPairs, toUint, this]
  · cases n with
    | none => simp [hp, flatPairs, toAttrsPairs, toBytes]
    | some n =>
      have : n.toNat ≤ 255 := by have := UInt8.toNat_lt n; omega
      simp [hp, flatPairs, toAttrsPairs, toUint, toBytes, this]

theorem attrBytes_length (a : ByronAttributes) : (attrBytes a).length ≤ a.payload.length + 45 := by
  unfold attrBytes encMap
  have e := fun t n => encHead_length_le t n
  have e1 := e 0xa0
  have e2 := e 0x40 (UInt64.ofNat a.payload.length)
  have e3 : ∀ n, (encUint n).length ≤ 9 := e 0
  split
  · cases a.network with
    | none => simp only [List.append_nil, List.map_nil, List.flatten_nil, List.length_nil]; have := e1 (UInt64.ofNat 0); omega
    | some n =>
      simp only [List.nil_append, List.map_cons, List.map_nil, List.flatten_cons, List.flatten_nil, List.append_nil,
        List.length_append, List.length_cons, List.length_nil]
      have := e1 (UInt64.ofNat (0 + 1)); have := e3 2; have := e3 (UInt64.ofNat n.toNat); omega
  · cases a.network with
    | none =>
      simp only [List.append_nil, List.map_cons, List.map_nil, List.flatten_cons, List.flatten_nil,
        List.length_append, List.length_cons, List.length_nil, encBytes]
      have := e1 (UInt64.ofNat (0 + 1)); have := e3 1; omega
    | some n =>
      simp only [List.append_nil, List.map_cons, List.map_nil, List.flatten_cons, List.flatten_nil, List.cons_append, List.nil_append,
        List.length_append, List.length_cons, List.length_nil, encBytes]
      have := e1 (UInt64.ofNat (0 + 1 + 1)); have := e3 1; have := e3 2; have := e3 (UInt64.ofNat n.toNat); omega

theorem raw_enc (b : ByronAddress) (h : ByronOk b) :
    Enc (rawBytes b) (.array [.bytes b.hash, .map (flatPairs (attrPairs b.attributes)), .uint b.tag.toNat]) := by
  obtain ⟨h1, _, h3⟩ := h
  exact enc_array _ _ (.cons (enc_bytes _ (by omega)) (.cons (attr_enc _ h3) (.cons (enc_uint _) .nil))) (by simp)

theorem raw_length (b : ByronAddress) (h : ByronOk b) : (rawBytes b).length < 2 ^ 64 := by
  obtain ⟨h1, _, h3⟩ := h
  have e1 := encHead_length_le 0x80 (UInt64.ofNat [encBytes b.hash, attrBytes b.attributes, encUint b.tag].length)
  have e2 := encHead_length_le 0x40 (UInt64.ofNat b.hash.length)
  have e3 : (encUint b.tag).length ≤ 9 := encHead_length_le _ _
  have e4 := attrBytes_length b.attributes
  unfold rawBytes encArray
  simp only [List.flatten_cons, List.flatten_nil, List.append_nil, List.length_append, encBytes] at *
  omega

theorem decodeRaw_of (strict : Bool) (b : ByronAddress) (h : ByronOk b) : decodeRaw strict (rawBytes b) = .ok b := by
  have e := (raw_enc b h).parseFirst []
  rw [List.append_nil] at e
  unfold decodeRaw
  rw [e]
  have ht : b.tag.toNat ≤ 2 ^ 64 - 1 := by have := UInt64.toNat_lt b.tag; omega
  simp [stripTags, toBytes, toAttrs, attr_dec, toUint, ht]

theorem bytes_enc (raw : Bytes) (h : raw.length < 2 ^ 64) (c : UInt64) :
    Enc (encArray [encTag 24 (encBytes raw), encUint c]) (.array [.tag 24 (.bytes raw), .uint c.toNat]) :=
  enc_array _ _ (.cons (enc_tag _ _ _ (enc_bytes _ h)) (.cons (enc_uint _) .nil)) (by simp)

theorem unmarshal_of (strict : Bool) (b : ByronAddress) (h : ByronOk b) : unmarshal strict (bytes b) = .ok b := by
  have hc : (UInt64.ofNat (Crc32.checksum (rawBytes b)).toNat).toNat = (Crc32.checksum (rawBytes b)).toNat :=
    ofNat64 _ (by have := UInt32.toNat_lt (Crc32.checksum (rawBytes b)); omega)
  have e := (bytes_enc (rawBytes b) (raw_length b h) (UInt64.ofNat (Crc32.checksum (rawBytes b)).toNat)).parseFirst []
  rw [List.append_nil, hc] at e
  have e' : parseFirst (bytes b) = _ := e
  have hle : (Crc32.checksum (rawBytes b)).toNat ≤ 4294967295 := by
    have := UInt32.toNat_lt (Crc32.checksum (rawBytes b)); omega
  have hd := decodeRaw_of strict b h
  obtain ⟨h1, h2, _⟩ := h
  unfold unmarshal
  rw [e']
  simp [ofItem, stripTags, toUint, hle, hd, h1, h2]

theorem bytes_cons (b : ByronAddress) : ∃ t, bytes b = 0x82 :: t := by
  have a1 : encHead 0x80 (UInt64.ofNat 2) = [0x82] := by decide
  have : bytes b = encHead 0x80 (UInt64.ofNat 2) ++ (encHead 0xc0 24 ++ encBytes (rawBytes b) ++
      encUint (UInt64.ofNat (Crc32.checksum (rawBytes b)).toNat)) := by
    simp [bytes, encArray, encTag]
  rw [this, a1]
  exact ⟨_, rfl⟩

/-! ### leading digits of base58 texts -/

/-- Numbers with base-58 digits `A` followed by `m` further digits. -/
theorem digits_prefix (pre : List Nat) (n : Nat) (l : List Nat)
    (hpre : (Base58.digits 58 (n + 1) n).take pre.length = pre) (hl : l = (Base58.digits 58 (n + 1) n).drop pre.length) :
    (pre.foldl (fun a d => a * 58 + d) 0) * 58 ^ l.length ≤ n ∧ n < (pre.foldl (fun a d => a * 58 + d) 0 + 1) * 58 ^ l.length := by
  have hv := Base58.digits_val 58 (by omega) (n + 1) n (by omega)
  have hlt := Base58.digits_lt 58 (by omega) (n + 1) n
  have hsplit : Base58.digits 58 (n + 1) n = pre ++ l := by
    rw [hl]
    conv => rhs; rw [← hpre]
    rw [List.length_take]
    by_cases hle : pre.length ≤ (Base58.digits 58 (n + 1) n).length
    · rw [Nat.min_eq_left hle]
      have : ((Base58.digits 58 (n + 1) n).take pre.length).length = pre.length := by rw [List.length_take]; omega
      exact (List.take_append_drop _ _).symm
    · have := congrArg List.length hpre
      rw [List.length_take] at this; omega
  rw [hsplit] at hv hlt
  rw [List.foldl_append] at hv
  have key : ∀ (l : List Nat) a, (∀ d ∈ l, d < 58) →
      a * 58 ^ l.length ≤ l.foldl (fun a d => a * 58 + d) a ∧ l.foldl (fun a d => a * 58 + d) a < (a + 1) * 58 ^ l.length := by
    intro l
    induction l with
    | nil => intro a _; simp
    | cons d l ih =>
      intro a h
      have hd := h d (by simp)
      obtain ⟨i1, i2⟩ := ih (a * 58 + d) (fun x hx => h x (by simp [hx]))
      simp only [List.foldl_cons, List.length_cons, Nat.pow_succ]
      have p1 : a * (58 ^ l.length * 58) ≤ (a * 58 + d) * 58 ^ l.length := by
        have : a * (58 ^ l.length * 58) = a * 58 * 58 ^ l.length := by rw [Nat.mul_comm (58 ^ l.length), Nat.mul_assoc]
        rw [this]; exact Nat.mul_le_mul_right _ (by omega)
      have p2 : (a * 58 + d + 1) * 58 ^ l.length ≤ (a + 1) * (58 ^ l.length * 58) := by
        have : (a + 1) * (58 ^ l.length * 58) = (a + 1) * 58 * 58 ^ l.length := by rw [Nat.mul_comm (58 ^ l.length), Nat.mul_assoc]
        rw [this]; exact Nat.mul_le_mul_right _ (by omega)
      omega
  have := key l (pre.foldl (fun a d => a * 58 + d) 0) (fun d hd => hlt d (by simp [hd]))
  omega

theorem index_of_getD (d : Nat) (hd : d < 58) (c : UInt8) (h : Base58.alphabet.getD d 0 = c) : Base58.index c = some d := by
  rw [← h]; exact Base58.index_alphabet d hd

/-- If a base-58 string starts with characters whose digits are `pre`, so do the digits. -/
theorem map_prefix (ds : List Nat) (pre : List Nat) (s : Bytes) (hds : ∀ d ∈ ds, d < 58)
    (hs : s.map Base58.index = pre.map some)
    (h : (ds.map fun d => Base58.alphabet.getD d 0).take s.length = s) : ds.take pre.length = pre := by
  have hl : s.length = pre.length := by
    have := congrArg List.length hs; simpa using this
  have : ((ds.take pre.length).map fun d => Base58.alphabet.getD d 0) = s := by rw [← hl, List.map_take]; exact h
  rw [← this, List.map_map] at hs
  have e : (ds.take pre.length).map (Base58.index ∘ fun d => Base58.alphabet.getD d 0) = (ds.take pre.length).map some := by
    apply List.map_congr_left
    intro d hd
    exact Base58.index_alphabet d (hds d (List.mem_of_mem_take hd))
  rw [e] at hs
  exact (List.map_inj_right (fun _ _ => by simp)).1 hs

theorem no_prefix (A m m' lo hi n : Nat) (h1 : (A + 1) * 58 ^ m ≤ lo) (h2 : hi ≤ A * 58 ^ (m + 1)) (hn : lo ≤ n ∧ n < hi)
    (h3 : A * 58 ^ m' ≤ n ∧ n < (A + 1) * 58 ^ m') : False := by
  by_cases h : m' ≤ m
  · have : (A + 1) * 58 ^ m' ≤ (A + 1) * 58 ^ m := Nat.mul_le_mul_left _ (Nat.pow_le_pow_right (by omega) h)
    omega
  · have : A * 58 ^ (m + 1) ≤ A * 58 ^ m' := Nat.mul_le_mul_left _ (Nat.pow_le_pow_right (by omega) (by omega))
    omega

end Cardano.Byron
