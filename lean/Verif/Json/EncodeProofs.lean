import Verif.Json.Encode
import Verif.Json.DecodeProofs
/-!
# What the encoder writes is a JSON text for the value, and base64 can be undone
-/
set_option autoImplicit false

namespace Cardano.Json
open Transaction Node

/-! ## Strings -/

theorem encChar_text : ∀ c : UInt8, c.toNat < 128 →
    (encChar c = [c] ∧ 0x20 ≤ c.toNat ∧ c ≠ 0x22 ∧ c ≠ 0x5c) ∨ (∃ e, encChar c = [0x5c, e] ∧ escChar e = some c) ∨
      (∃ a b i j, encChar c = [0x5c, 0x75, 0x30, 0x30, a, b] ∧ hexDigit a = some i ∧ hexDigit b = some j ∧ i * 16 + j = c.toNat) := by
  have key : ∀ c : UInt8, c.toNat < 128 →
      (encChar c = [c] ∧ 0x20 ≤ c.toNat ∧ c ≠ 0x22 ∧ c ≠ 0x5c) ∨
      ((encChar c = [0x5c, (encChar c).getD 1 0] ∧ escChar ((encChar c).getD 1 0) = some c)) ∨
      (encChar c = [0x5c, 0x75, 0x30, 0x30, (encChar c).getD 4 0, (encChar c).getD 5 0] ∧
        hexDigit ((encChar c).getD 4 0) = some (c.toNat / 16) ∧ hexDigit ((encChar c).getD 5 0) = some (c.toNat % 16)) := forall_byte (by decide +kernel)
  intro c hc
  rcases key c hc with h | h | h
  · exact Or.inl h
  · exact Or.inr (Or.inl ⟨_, h⟩)
  · exact Or.inr (Or.inr ⟨_, _, _, _, h.1, h.2.1, h.2.2, by omega⟩)

theorem strText_enc (s : Bytes) (h : Ascii s) : StrText s (s.flatMap encChar) := by
  induction s with
  | nil => exact .nil
  | cons c s ih =>
    have ih := ih (fun x hx => h x (List.mem_cons_of_mem _ hx))
    have hc := h c (List.mem_cons_self ..)
    rw [List.flatMap_cons]
    rcases encChar_text c hc with ⟨h1, h2, h3, h4⟩ | ⟨e, h1, h2⟩ | ⟨a, b, i, j, h1, h2, h3, h4⟩
    · rw [h1]; exact .plain c s _ h2 h3 h4 ih
    · rw [h1]; exact .esc e c s _ h2 ih
    · rw [h1]
      have hu : Hex4 [0x30, 0x30, a, b] c.toNat := ⟨_, _, _, _, 0, 0, i, j, rfl, rfl, rfl, h2, h3, by omega⟩
      have := StrText.unicode [0x30, 0x30, a, b] c.toNat s _ hu (by unfold HighSurrogate LowSurrogate; omega) ih
      rw [show utf8 c.toNat = [c] by unfold utf8; rw [if_pos hc]; simp] at this
      exact this

/-! ## Values -/

mutual
/-- The numbers of the value are numbers, its strings and names ASCII, and it is nested at most that deep. -/
def Writable : JVal → Nat → Prop
  | .null, _ => True
  | .bool _, _ => True
  | .num lit, _ => NumText lit
  | .str s, _ => Ascii s
  | .arr vs, n => ∃ m, n = m + 1 ∧ WritableElems vs m
  | .obj ms, n => ∃ m, n = m + 1 ∧ WritableMembers ms m

def WritableElems : List JVal → Nat → Prop
  | [], _ => True
  | v :: vs, n => Writable v n ∧ WritableElems vs n

def WritableMembers : List (Bytes × JVal) → Nat → Prop
  | [], _ => True
  | m :: ms, n => WritableMember m n ∧ WritableMembers ms n

def WritableMember : Bytes × JVal → Nat → Prop
  | (k, v), n => Ascii k ∧ Writable v n
end

theorem ws_nil : Ws [] := fun _ hc => absurd hc List.not_mem_nil

mutual
theorem write_text (nl : Nat → Bytes) (sp : Bytes) (hnl : ∀ d, Ws (nl d)) (hsp : Ws sp) :
    ∀ (v : JVal) (d n : Nat), Writable v n → ValText n v (write nl sp v d)
  | .null, d, n, _ => by rw [write]; exact .null n
  | .bool true, d, n, _ => by rw [write]; exact .tru n
  | .bool false, d, n, _ => by rw [write]; exact .fls n
  | .num lit, d, n, h => by rw [write]; rw [Writable] at h; exact .num n lit h
  | .str s, d, n, h => by rw [write]; rw [Writable] at h; exact .str n s _ (strText_enc s h)
  | .arr vs, d, n, h => by
    rw [Writable] at h
    obtain ⟨m, rfl, h⟩ := h
    rw [write]
    by_cases hv : vs = []
    · subst hv; exact .arr0 m [] ws_nil
    · rw [if_neg (by simpa using hv), ← List.append_assoc]
      exact .arr m vs _ (writeElems_text nl sp hnl hsp vs (d + 1) m h hv _ (hnl d))
  | .obj ms, d, n, h => by
    rw [Writable] at h
    obtain ⟨m, rfl, h⟩ := h
    rw [write]
    by_cases hv : ms = []
    · subst hv; exact .obj0 m [] ws_nil
    · rw [if_neg (by simpa using hv), ← List.append_assoc]
      exact .obj m ms _ (writeMembers_text nl sp hnl hsp ms (d + 1) m h hv _ (hnl d))

theorem writeElems_text (nl : Nat → Bytes) (sp : Bytes) (hnl : ∀ d, Ws (nl d)) (hsp : Ws sp) :
    ∀ (vs : List JVal) (d n : Nat), WritableElems vs n → vs ≠ [] → ∀ w, Ws w → ElemsText n vs (writeElems nl sp vs d ++ w)
  | [], d, n, _, h, w, hw => absurd rfl h
  | [v], d, n, h, _, w, hw => by
    rw [WritableElems] at h
    have := ElemsText.one n v (nl d) _ w (hnl d) hw (write_text nl sp hnl hsp v d n h.1)
    simpa [writeElems] using this
  | v :: v' :: vs, d, n, h, _, w, hw => by
    rw [WritableElems] at h
    have hr := writeElems_text nl sp hnl hsp (v' :: vs) d n h.2 (by simp) w hw
    have := ElemsText.cons n v (v' :: vs) (nl d) _ [] _ (hnl d) ws_nil (write_text nl sp hnl hsp v d n h.1) hr
    rw [writeElems]
    simpa [List.append_assoc] using this

theorem writeMembers_text (nl : Nat → Bytes) (sp : Bytes) (hnl : ∀ d, Ws (nl d)) (hsp : Ws sp) :
    ∀ (ms : List (Bytes × JVal)) (d n : Nat), WritableMembers ms n → ms ≠ [] → ∀ w, Ws w → MembersText n ms (writeMembers nl sp ms d ++ w)
  | [], d, n, _, h, w, hw => absurd rfl h
  | [(k, v)], d, n, h, _, w, hw => by
    rw [WritableMembers, WritableMember] at h
    have := MembersText.one n k v (nl d) _ [] sp _ w (hnl d) (strText_enc k h.1.1) ws_nil hsp (write_text nl sp hnl hsp v d n h.1.2) hw
    simpa [writeMembers, writeMember, encStr, List.append_assoc] using this
  | (k, v) :: m' :: ms, d, n, h, _, w, hw => by
    rw [WritableMembers, WritableMember] at h
    have hr := writeMembers_text nl sp hnl hsp (m' :: ms) d n h.2 (by simp) w hw
    have := MembersText.cons n k v (m' :: ms) (nl d) _ [] sp _ [] _ (hnl d) (strText_enc k h.1.1) ws_nil hsp (write_text nl sp hnl hsp v d n h.1.2) ws_nil hr
    rw [writeMembers, writeMember, encStr]
    simpa [List.append_assoc] using this
end

theorem marshal_text (v : JVal) (h : Writable v 10000) : JsonText (marshal v) v :=
  ⟨[], _, [], by simp [marshal], ws_nil, ws_nil, write_text _ _ (fun _ => ws_nil) ws_nil v 0 10000 h⟩

theorem marshalIndent_text (indent : Bytes) (hi : Ws indent) (v : JVal) (h : Writable v 10000) : JsonText (marshalIndent indent v) v := by
  refine ⟨[], marshalIndent indent v, [], by simp, ws_nil, ws_nil, write_text _ _ (fun d => ?_) ?_ v 0 10000 h⟩
  · intro c hc
    rcases List.mem_cons.1 hc with rfl | hc
    · simp
    · obtain ⟨l, hl, hcl⟩ := List.mem_flatten.1 hc
      rw [(List.mem_replicate.1 hl).2] at hcl
      exact hi c hcl
  · intro c hc; simp at hc; simp [hc]

/-! ## Numbers -/

theorem decimal_digit (n : Nat) : ∀ c ∈ decimal n, Digit c := by
  fun_induction decimal n with
  | case1 n h =>
    intro c hc
    rw [List.mem_singleton] at hc
    subst hc
    have : (UInt8.ofNat (48 + n)).toNat = 48 + n := by rw [UInt8.toNat_ofNat']; omega
    unfold Digit; omega
  | case2 n h ih =>
    intro c hc
    rcases List.mem_append.1 hc with hc | hc
    · exact ih c hc
    · rw [List.mem_singleton] at hc
      subst hc
      have : (UInt8.ofNat (48 + n % 10)).toNat = 48 + n % 10 := by rw [UInt8.toNat_ofNat']; omega
      unfold Digit; omega

theorem decimal_value (n : Nat) : (decimal n).foldl (fun a c => 10 * a + (c.toNat - 48)) 0 = n := by
  fun_induction decimal n with
  | case1 n h =>
    have : (UInt8.ofNat (48 + n)).toNat = 48 + n := by rw [UInt8.toNat_ofNat']; omega
    simp only [List.foldl_cons, List.foldl_nil, this]; omega
  | case2 n h ih =>
    have : (UInt8.ofNat (48 + n % 10)).toNat = 48 + n % 10 := by rw [UInt8.toNat_ofNat']; omega
    rw [List.foldl_append, ih]
    simp only [List.foldl_cons, List.foldl_nil, this]; omega

theorem decimal_head (n : Nat) (hn : n ≠ 0) : ∃ c r, decimal n = c :: r ∧ c ≠ 48 := by
  fun_induction decimal n with
  | case1 n h =>
    refine ⟨_, [], rfl, fun e => ?_⟩
    have : (UInt8.ofNat (48 + n)).toNat = 48 + n := by rw [UInt8.toNat_ofNat']; omega
    rw [e] at this
    simp at this
    omega
  | case2 n h ih =>
    obtain ⟨c, r, h1, h2⟩ := ih (by omega)
    exact ⟨c, _, by rw [h1]; rfl, h2⟩

theorem decimal_numText (n : Nat) : NumText (decimal n) := by
  refine ⟨[], decimal n, [], [], by simp, Or.inl rfl, ?_, Or.inl rfl, Or.inl rfl⟩
  by_cases hn : n = 0
  · left; subst hn; rw [decimal]; rfl
  · obtain ⟨c, r, h1, h2⟩ := decimal_head n hn
    have := decimal_digit n
    rw [h1] at this
    exact Or.inr ⟨c, r, h1, this c (List.mem_cons_self ..), h2, fun x hx => this x (List.mem_cons_of_mem _ hx)⟩

theorem decimal_uintLit (bits n : Nat) (h : n < 2 ^ bits) : UintLit bits (decimal n) n := by
  refine ⟨?_, decimal_digit n, (decimal_value n).symm, h⟩
  by_cases hn : n = 0
  · subst hn; rw [decimal]; simp
  · obtain ⟨c, r, h1, _⟩ := decimal_head n hn
    rw [h1]; simp

/-! ## Base64 -/

theorem b64Val_char : ∀ n, n < 64 → b64Val (b64Char n) = some n ∧ b64Char n ≠ 61 ∧ b64Char n ≠ 10 ∧ b64Char n ≠ 13 ∧ (b64Char n).toNat < 128 := by decide

theorem ofNat_toNat_byte (n : Nat) (a : UInt8) (h : n % 256 = a.toNat) : UInt8.ofNat n = a := by
  apply UInt8.toNat_inj.1
  rw [UInt8.toNat_ofNat']
  exact h

theorem b64_groups (s : Bytes) : b64Groups (b64Encode s) = some s := by
  fun_induction b64Encode s with
  | case1 => rfl
  | case2 a =>
    have := a.toNat_lt
    unfold b64Groups
    rw [(b64Val_char (a.toNat / 4) (by omega)).1, (b64Val_char (a.toNat % 4 * 16) (by omega)).1]
    simp only [and_self, if_true]
    rw [ofNat_toNat_byte _ a (by omega)]
  | case3 a b =>
    have := a.toNat_lt
    have := b.toNat_lt
    unfold b64Groups
    rw [(b64Val_char (a.toNat / 4) (by omega)).1, (b64Val_char (a.toNat % 4 * 16 + b.toNat / 16) (by omega)).1]
    simp only [if_neg (b64Val_char (b.toNat % 16 * 4) (by omega)).2.1, (b64Val_char (b.toNat % 16 * 4) (by omega)).1, if_true]
    rw [ofNat_toNat_byte _ a (by omega), ofNat_toNat_byte _ b (by omega)]
  | case4 a b c s ih =>
    have := a.toNat_lt
    have := b.toNat_lt
    have := c.toNat_lt
    unfold b64Groups
    rw [(b64Val_char (a.toNat / 4) (by omega)).1, (b64Val_char (a.toNat % 4 * 16 + b.toNat / 16) (by omega)).1]
    simp only [if_neg (b64Val_char (b.toNat % 16 * 4 + c.toNat / 64) (by omega)).2.1, (b64Val_char (b.toNat % 16 * 4 + c.toNat / 64) (by omega)).1,
      if_neg (b64Val_char (c.toNat % 64) (by omega)).2.1, (b64Val_char (c.toNat % 64) (by omega)).1, ih]
    rw [ofNat_toNat_byte _ a (by omega), ofNat_toNat_byte _ b (by omega), ofNat_toNat_byte _ c (by omega)]

theorem b64_chars (s : Bytes) : ∀ c ∈ b64Encode s, c ≠ 10 ∧ c ≠ 13 ∧ c.toNat < 128 := by
  have ch : ∀ n, n < 64 → b64Char n ≠ 10 ∧ b64Char n ≠ 13 ∧ (b64Char n).toNat < 128 := fun n hn => (b64Val_char n hn).2.2
  have pad : (61 : UInt8) ≠ 10 ∧ (61 : UInt8) ≠ 13 ∧ (61 : UInt8).toNat < 128 := by decide
  fun_induction b64Encode s with
  | case1 => intro c hc; cases hc
  | case2 a =>
    have := a.toNat_lt
    simp only [List.forall_mem_cons]
    exact ⟨ch _ (by omega), ch _ (by omega), pad, pad, by simp⟩
  | case3 a b =>
    have := a.toNat_lt
    have := b.toNat_lt
    simp only [List.forall_mem_cons]
    exact ⟨ch _ (by omega), ch _ (by omega), ch _ (by omega), pad, by simp⟩
  | case4 a b c s ih =>
    have := a.toNat_lt
    have := b.toNat_lt
    have := c.toNat_lt
    simp only [List.forall_mem_cons]
    exact ⟨ch _ (by omega), ch _ (by omega), ch _ (by omega), ch _ (by omega), ih⟩

theorem b64_decode_encode (s : Bytes) : b64Decode (b64Encode s) = some s := by
  unfold b64Decode
  rw [List.filter_eq_self.2, b64_groups]
  intro c hc
  have := b64_chars s c hc
  simp [this.1, this.2.1]

theorem b64_length (s : Bytes) : (b64Encode s).length = (s.length + 2) / 3 * 4 := by
  fun_induction b64Encode s with
  | case1 => rfl
  | case2 a => simp
  | case3 a b => simp
  | case4 a b c s ih => simp only [List.length_cons, ih]; omega

/-! ### Base64 of RFC 4648 -/

/-- Table 1 of RFC 4648. -/
def alphabet64 : Bytes :=
  asc ['A','B','C','D','E','F','G','H','I','J','K','L','M','N','O','P','Q','R','S','T','U','V','W','X','Y','Z',
    'a','b','c','d','e','f','g','h','i','j','k','l','m','n','o','p','q','r','s','t','u','v','w','x','y','z','0','1','2','3','4','5','6','7','8','9','+','/']

/-- `IsBase64 t s`: `t` is the encoding of `s`: three bytes are a number of 24 bits, written as four digits of six bits; what is missing at the end counts as zero bits, and its
digits are replaced by `=`. -/
inductive IsBase64 : Bytes → Bytes → Prop
  | nil : IsBase64 [] []
  | one (a w x : UInt8) (i j : Nat) (hw : alphabet64[i]? = some w) (hx : alphabet64[j]? = some x) (h : a.toNat * 65536 = i * 262144 + j * 4096) :
      IsBase64 [w, x, 61, 61] [a]
  | two (a b w x y : UInt8) (i j k : Nat) (hw : alphabet64[i]? = some w) (hx : alphabet64[j]? = some x) (hy : alphabet64[k]? = some y)
      (h : a.toNat * 65536 + b.toNat * 256 = i * 262144 + j * 4096 + k * 64) : IsBase64 [w, x, y, 61] [a, b]
  | three (a b c w x y z : UInt8) (t s : Bytes) (i j k l : Nat) (hw : alphabet64[i]? = some w) (hx : alphabet64[j]? = some x) (hy : alphabet64[k]? = some y)
      (hz : alphabet64[l]? = some z) (h : a.toNat * 65536 + b.toNat * 256 + c.toNat = i * 262144 + j * 4096 + k * 64 + l) (ht : IsBase64 t s) :
      IsBase64 (w :: x :: y :: z :: t) (a :: b :: c :: s)

theorem b64Char_alphabet : ∀ n, n < 64 → alphabet64[n]? = some (b64Char n) := by decide

theorem b64Encode_spec (s : Bytes) : IsBase64 (b64Encode s) s := by
  fun_induction b64Encode s with
  | case1 => exact .nil
  | case2 a =>
    have := a.toNat_lt
    exact .one _ _ _ _ _ (b64Char_alphabet _ (by omega)) (b64Char_alphabet _ (by omega)) (by omega)
  | case3 a b =>
    have := a.toNat_lt
    have := b.toNat_lt
    exact .two _ _ _ _ _ _ _ _ (b64Char_alphabet _ (by omega)) (b64Char_alphabet _ (by omega)) (b64Char_alphabet _ (by omega)) (by omega)
  | case4 a b c s ih =>
    have := a.toNat_lt
    have := b.toNat_lt
    have := c.toNat_lt
    exact .three _ _ _ _ _ _ _ _ _ _ _ _ _ (b64Char_alphabet _ (by omega)) (b64Char_alphabet _ (by omega)) (b64Char_alphabet _ (by omega)) (b64Char_alphabet _ (by omega))
      (by omega) ih

end Cardano.Json
