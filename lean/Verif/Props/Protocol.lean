import Verif.Json.DecodeProofs
import Verif.Props.Node
/-!
# Properties C69, C70, C71: protocol parameters and the tip of the chain read from JSON
-/
set_option autoImplicit false

namespace Cardano.Props
open Json Node Transaction Spec

/-- The members of a JSON object state these protocol parameters (fields of `cardano-cli`'s format). -/
def StatesProtocol (ms : List (Bytes × JVal)) (p : FullProtocol) : Prop :=
  FieldIs 64 (asc ['t','x','F','e','e','P','e','r','B','y','t','e']) ms p.params.txFeePerByte.toNat ∧
  FieldIs 64 (asc ['t','x','F','e','e','F','i','x','e','d']) ms p.params.txFeeFixed.toNat ∧
  FieldIs 64 (asc ['m','a','x','T','x','S','i','z','e']) ms p.params.maxTxSize.toNat ∧
  FieldIs 64 (asc ['m','i','n','U','T','x','O','V','a','l','u','e']) ms p.params.minUTXOValue.toNat ∧
  ∃ vs, ObjFieldIs (asc ['p','r','o','t','o','c','o','l','V','e','r','s','i','o','n']) ms vs ∧
    FieldIs 8 (asc ['m','a','j','o','r']) vs p.major.toNat ∧ FieldIs 8 (asc ['m','i','n','o','r']) vs p.minor.toNat

/-- The JSON value states these protocol parameters; `null` states nothing. -/
def DescribesProtocol (v : JVal) (p : FullProtocol) : Prop :=
  (v = .null ∧ p = ⟨⟨0, 0, 0, 0⟩, 0, 0⟩) ∨ ∃ ms, v = .obj ms ∧ StatesProtocol ms p

theorem version_err (os : List (Bytes × JVal)) : ∀ st : Out (UInt8 × UInt8), (os.foldl storeVersionMember st).err = none → st.err = none := by
  induction os with
  | nil => intro st h; exact h
  | cons m os ih =>
    intro st h
    have := ih _ h
    unfold storeVersionMember at this
    split at this
    · exact ((saveError_none _ _).1 this).1
    · split at this
      · exact ((saveError_none _ _).1 this).1
      · exact this

/-- The step of the version field. -/
theorem version_step (ms : List (Bytes × JVal)) (k : Bytes) (v : JVal) (e0 : Option String) (a0 b0 a b : UInt8) (hk : SameName k nProtocolVersion)
    (ih : ∀ a b : UInt8, (a0 = a ∧ b0 = b) ∧ e0 = none → ∃ vs, ObjFieldIs nProtocolVersion ms vs ∧ FieldIs 8 nMajor vs a.toNat ∧ FieldIs 8 nMinor vs b.toNat)
    (h : storeVersion ⟨(a0, b0), e0⟩ v = ⟨(a, b), none⟩) :
    e0 = none ∧ ∃ vs, ObjFieldIs nProtocolVersion (ms ++ [(k, v)]) vs ∧ FieldIs 8 nMajor vs a.toNat ∧ FieldIs 8 nMinor vs b.toNat := by
  cases v with
  | null =>
    simp only [storeVersion, Out.mk.injEq, Prod.mk.injEq] at h
    obtain ⟨vs, h1, h2⟩ := ih a b h
    exact ⟨h.2, vs, .null _ _ _ h1 hk, h2⟩
  | obj ns =>
    rw [storeVersion] at h
    have he : e0 = none := version_err ns ⟨(a0, b0), e0⟩ (by rw [h])
    subst he
    obtain ⟨vs, h1, h2⟩ := ih a0 b0 ⟨⟨rfl, rfl⟩, rfl⟩
    have hv := (version_fold vs a0 b0).2 h2
    refine ⟨rfl, vs ++ ns, .set _ _ _ _ h1 hk, ?_⟩
    rw [← version_fold, List.foldl_append, hv, h]
  | bool x => simp [storeVersion, saveError_none] at h
  | num x => simp [storeVersion, saveError_none] at h
  | str x => simp [storeVersion, saveError_none] at h
  | arr x => simp [storeVersion, saveError_none] at h

theorem version_step' (ms : List (Bytes × JVal)) (k : Bytes) (v : JVal) (a b : UInt8) (hk : SameName k nProtocolVersion)
    (h : ∃ vs, ObjFieldIs nProtocolVersion (ms ++ [(k, v)]) vs ∧ FieldIs 8 nMajor vs a.toNat ∧ FieldIs 8 nMinor vs b.toNat) :
    ∃ a0 b0 : UInt8, (∃ vs, ObjFieldIs nProtocolVersion ms vs ∧ FieldIs 8 nMajor vs a0.toNat ∧ FieldIs 8 nMinor vs b0.toNat) ∧
      storeVersion ⟨(a0, b0), none⟩ v = ⟨(a, b), none⟩ := by
  obtain ⟨vs, h1, h2⟩ := h
  rw [objFieldIs_snoc] at h1
  rcases h1 with ⟨hk', _⟩ | ⟨_, ⟨rfl, h1⟩ | ⟨os, ns, rfl, rfl, h1⟩⟩
  · exact absurd hk hk'
  · exact ⟨a, b, ⟨vs, h1, h2⟩, rfl⟩
  · rw [← version_fold, List.foldl_append] at h2
    have he := version_err ns _ (by rw [h2])
    generalize hst : os.foldl storeVersionMember ⟨(0, 0), none⟩ = st at h2 he
    obtain ⟨⟨a0, b0⟩, e0⟩ := st
    dsimp only at he
    subst he
    exact ⟨a0, b0, ⟨os, h1, (version_fold os a0 b0).1 hst⟩, h2⟩

theorem protocol_fold (ms : List (Bytes × JVal)) : ∀ p : FullProtocol, ms.foldl storeMember ⟨zeroProtocol, none⟩ = ⟨p, none⟩ ↔ StatesProtocol ms p := by
  induction ms using snoc_induction with
  | h0 =>
    rintro ⟨⟨a, b, c, d⟩, e, f⟩
    simp only [StatesProtocol, fieldIs_nil, objFieldIs_nil, exists_eq_left, List.foldl_nil, zeroProtocol, Out.mk.injEq, FullProtocol.mk.injEq, Protocol.mk.injEq]
    constructor
    · rintro ⟨⟨⟨rfl, rfl, rfl, rfl⟩, rfl, rfl⟩, _⟩; exact ⟨rfl, rfl, rfl, rfl, rfl, rfl⟩
    · rintro ⟨h1, h2, h3, h4, h5, h6⟩
      exact ⟨⟨⟨(UInt64.toNat_inj.1 h1).symm, (UInt64.toNat_inj.1 h2).symm, (UInt64.toNat_inj.1 h3).symm, (UInt64.toNat_inj.1 h4).symm⟩,
        (UInt8.toNat_inj.1 h5).symm, (UInt8.toNat_inj.1 h6).symm⟩, trivial⟩
  | h1 ms m ih =>
    obtain ⟨k, v⟩ := m
    rintro ⟨⟨a, b, c, d⟩, ma, mi⟩
    rw [List.foldl_append, List.foldl_cons, List.foldl_nil]
    generalize ms.foldl storeMember ⟨zeroProtocol, none⟩ = st at ih ⊢
    obtain ⟨⟨⟨a0, b0, c0, d0⟩, ma0, mi0⟩, e0⟩ := st
    have ih : ∀ (a b c d : UInt64) (ma mi : UInt8), ((((a0 = a ∧ b0 = b ∧ c0 = c ∧ d0 = d) ∧ ma0 = ma ∧ mi0 = mi) ∧ e0 = none) ↔
        (FieldIs 64 nTxFeePerByte ms a.toNat ∧ FieldIs 64 nTxFeeFixed ms b.toNat ∧ FieldIs 64 nMaxTxSize ms c.toNat ∧
          FieldIs 64 nMinUTxOValue ms d.toNat ∧ ∃ vs, ObjFieldIs nProtocolVersion ms vs ∧ FieldIs 8 nMajor vs ma.toNat ∧ FieldIs 8 nMinor vs mi.toNat)) := by
      intro a b c d ma mi
      have := ih ⟨⟨a, b, c, d⟩, ma, mi⟩
      simp only [Out.mk.injEq, FullProtocol.mk.injEq, Protocol.mk.injEq] at this
      exact this
    show _ ↔ (FieldIs 64 nTxFeePerByte (ms ++ [(k, v)]) a.toNat ∧ FieldIs 64 nTxFeeFixed (ms ++ [(k, v)]) b.toNat ∧ FieldIs 64 nMaxTxSize (ms ++ [(k, v)]) c.toNat ∧
          FieldIs 64 nMinUTxOValue (ms ++ [(k, v)]) d.toNat ∧
          ∃ vs, ObjFieldIs nProtocolVersion (ms ++ [(k, v)]) vs ∧ FieldIs 8 nMajor vs ma.toNat ∧ FieldIs 8 nMinor vs mi.toNat)
    unfold storeMember
    by_cases h1 : keyMatches nTxFeePerByte k = true
    · have hk := (keyMatches_iff _ k (by decide)).1 h1
      have k2 := names_disjoint _ nTxFeeFixed k hk (by decide) (by decide) (by decide)
      have k3 := names_disjoint _ nMaxTxSize k hk (by decide) (by decide) (by decide)
      have k4 := names_disjoint _ nProtocolVersion k hk (by decide) (by decide) (by decide)
      have k5 := names_disjoint _ nMinUTxOValue k hk (by decide) (by decide) (by decide)
      simp only [h1, if_true, Out.mk.injEq, FullProtocol.mk.injEq, Protocol.mk.injEq, saveError_none]
      simp only [field64_step _ _ _ _ _ hk, fieldIs_other _ _ _ _ _ _ k2, fieldIs_other _ _ _ _ _ _ k3, fieldIs_other _ _ _ _ _ _ k5,
        objFieldIs_other _ _ _ _ _ k4]
      constructor
      · rintro ⟨⟨⟨h2, rfl, rfl, rfl⟩, rfl, rfl⟩, rfl, h4⟩
        have := (ih a0 b0 c0 d0 ma0 mi0).1 ⟨⟨⟨rfl, rfl, rfl, rfl⟩, rfl, rfl⟩, rfl⟩
        exact ⟨⟨a0, this.1, (store64 a0 a v).1 ⟨h4, h2⟩⟩, this.2⟩
      · rintro ⟨⟨x, h2, h3⟩, h4⟩
        obtain ⟨⟨⟨rfl, rfl, rfl, rfl⟩, rfl, rfl⟩, rfl⟩ := (ih x b c d ma mi).2 ⟨h2, h4⟩
        have := (store64 a0 a v).2 h3
        exact ⟨⟨⟨this.2, rfl, rfl, rfl⟩, rfl, rfl⟩, rfl, this.1⟩
    have n1 : ¬ SameName k nTxFeePerByte := by rwa [← keyMatches_iff _ k (by decide)]
    by_cases h2 : keyMatches nTxFeeFixed k = true
    · have hk := (keyMatches_iff _ k (by decide)).1 h2
      have k3 := names_disjoint _ nMaxTxSize k hk (by decide) (by decide) (by decide)
      have k4 := names_disjoint _ nProtocolVersion k hk (by decide) (by decide) (by decide)
      have k5 := names_disjoint _ nMinUTxOValue k hk (by decide) (by decide) (by decide)
      simp only [h1, h2, Bool.false_eq_true, if_false, if_true, Out.mk.injEq, FullProtocol.mk.injEq, Protocol.mk.injEq, saveError_none]
      simp only [field64_step _ _ _ _ _ hk, fieldIs_other _ _ _ _ _ _ n1, fieldIs_other _ _ _ _ _ _ k3, fieldIs_other _ _ _ _ _ _ k5,
        objFieldIs_other _ _ _ _ _ k4]
      constructor
      · rintro ⟨⟨⟨rfl, h2, rfl, rfl⟩, rfl, rfl⟩, rfl, h4⟩
        have := (ih a0 b0 c0 d0 ma0 mi0).1 ⟨⟨⟨rfl, rfl, rfl, rfl⟩, rfl, rfl⟩, rfl⟩
        exact ⟨this.1, ⟨b0, this.2.1, (store64 b0 b v).1 ⟨h4, h2⟩⟩, this.2.2⟩
      · rintro ⟨ha, ⟨x, h2, h3⟩, h4⟩
        obtain ⟨⟨⟨rfl, rfl, rfl, rfl⟩, rfl, rfl⟩, rfl⟩ := (ih a x c d ma mi).2 ⟨ha, h2, h4⟩
        have := (store64 b0 b v).2 h3
        exact ⟨⟨⟨rfl, this.2, rfl, rfl⟩, rfl, rfl⟩, rfl, this.1⟩
    have n2 : ¬ SameName k nTxFeeFixed := by rwa [← keyMatches_iff _ k (by decide)]
    by_cases h3 : keyMatches nMaxTxSize k = true
    · have hk := (keyMatches_iff _ k (by decide)).1 h3
      have k4 := names_disjoint _ nProtocolVersion k hk (by decide) (by decide) (by decide)
      have k5 := names_disjoint _ nMinUTxOValue k hk (by decide) (by decide) (by decide)
      simp only [h1, h2, h3, Bool.false_eq_true, if_false, if_true, Out.mk.injEq, FullProtocol.mk.injEq, Protocol.mk.injEq, saveError_none]
      simp only [field64_step _ _ _ _ _ hk, fieldIs_other _ _ _ _ _ _ n1, fieldIs_other _ _ _ _ _ _ n2, fieldIs_other _ _ _ _ _ _ k5,
        objFieldIs_other _ _ _ _ _ k4]
      constructor
      · rintro ⟨⟨⟨rfl, rfl, h2, rfl⟩, rfl, rfl⟩, rfl, h4⟩
        have := (ih a0 b0 c0 d0 ma0 mi0).1 ⟨⟨⟨rfl, rfl, rfl, rfl⟩, rfl, rfl⟩, rfl⟩
        exact ⟨this.1, this.2.1, ⟨c0, this.2.2.1, (store64 c0 c v).1 ⟨h4, h2⟩⟩, this.2.2.2⟩
      · rintro ⟨ha, hb, ⟨x, h2, h3⟩, h4⟩
        obtain ⟨⟨⟨rfl, rfl, rfl, rfl⟩, rfl, rfl⟩, rfl⟩ := (ih a b x d ma mi).2 ⟨ha, hb, h2, h4⟩
        have := (store64 c0 c v).2 h3
        exact ⟨⟨⟨rfl, rfl, this.2, rfl⟩, rfl, rfl⟩, rfl, this.1⟩
    have n3 : ¬ SameName k nMaxTxSize := by rwa [← keyMatches_iff _ k (by decide)]
    by_cases h4 : keyMatches nProtocolVersion k = true
    · have hk := (keyMatches_iff _ k (by decide)).1 h4
      have k5 := names_disjoint _ nMinUTxOValue k hk (by decide) (by decide) (by decide)
      simp only [h1, h2, h3, h4, Bool.false_eq_true, if_false, if_true, Out.mk.injEq, FullProtocol.mk.injEq, Protocol.mk.injEq]
      simp only [fieldIs_other _ _ _ _ _ _ n1, fieldIs_other _ _ _ _ _ _ n2, fieldIs_other _ _ _ _ _ _ n3, fieldIs_other _ _ _ _ _ _ k5]
      constructor
      · rintro ⟨⟨⟨rfl, rfl, rfl, rfl⟩, hma, hmi⟩, he⟩
        obtain ⟨rfl, h5⟩ := version_step ms k v e0 ma0 mi0 ma mi hk
          (fun x y h => ((ih a0 b0 c0 d0 x y).1 ⟨⟨⟨rfl, rfl, rfl, rfl⟩, h.1⟩, h.2⟩).2.2.2.2)
          (by rw [← hma, ← hmi, ← he])
        have := (ih a0 b0 c0 d0 ma0 mi0).1 ⟨⟨⟨rfl, rfl, rfl, rfl⟩, rfl, rfl⟩, rfl⟩
        exact ⟨this.1, this.2.1, this.2.2.1, this.2.2.2.1, h5⟩
      · rintro ⟨ha, hb, hc, hd, hv⟩
        obtain ⟨x, y, hxy, hs⟩ := version_step' ms k v ma mi hk hv
        obtain ⟨⟨⟨rfl, rfl, rfl, rfl⟩, rfl, rfl⟩, rfl⟩ := (ih a b c d x y).2 ⟨ha, hb, hc, hd, hxy⟩
        rw [hs]
        exact ⟨⟨⟨rfl, rfl, rfl, rfl⟩, rfl, rfl⟩, rfl⟩
    have n4 : ¬ SameName k nProtocolVersion := by rwa [← keyMatches_iff _ k (by decide)]
    by_cases h5 : keyMatches nMinUTxOValue k = true
    · have hk := (keyMatches_iff _ k (by decide)).1 h5
      simp only [h1, h2, h3, h4, h5, Bool.false_eq_true, if_false, if_true, Out.mk.injEq, FullProtocol.mk.injEq, Protocol.mk.injEq, saveError_none]
      simp only [field64_step _ _ _ _ _ hk, fieldIs_other _ _ _ _ _ _ n1, fieldIs_other _ _ _ _ _ _ n2, fieldIs_other _ _ _ _ _ _ n3,
        objFieldIs_other _ _ _ _ _ n4]
      constructor
      · rintro ⟨⟨⟨rfl, rfl, rfl, h2⟩, rfl, rfl⟩, rfl, h4⟩
        have := (ih a0 b0 c0 d0 ma0 mi0).1 ⟨⟨⟨rfl, rfl, rfl, rfl⟩, rfl, rfl⟩, rfl⟩
        exact ⟨this.1, this.2.1, this.2.2.1, ⟨d0, this.2.2.2.1, (store64 d0 d v).1 ⟨h4, h2⟩⟩, this.2.2.2.2⟩
      · rintro ⟨ha, hb, hc, ⟨x, h2, h3⟩, h4⟩
        obtain ⟨⟨⟨rfl, rfl, rfl, rfl⟩, rfl, rfl⟩, rfl⟩ := (ih a b c x ma mi).2 ⟨ha, hb, hc, h2, h4⟩
        have := (store64 d0 d v).2 h3
        exact ⟨⟨⟨rfl, rfl, rfl, this.2⟩, rfl, rfl⟩, rfl, this.1⟩
    have n5 : ¬ SameName k nMinUTxOValue := by rwa [← keyMatches_iff _ k (by decide)]
    simp only [h1, h2, h3, h4, h5, Bool.false_eq_true, if_false, Out.mk.injEq, FullProtocol.mk.injEq, Protocol.mk.injEq]
    simp only [fieldIs_other _ _ _ _ _ _ n1, fieldIs_other _ _ _ _ _ _ n2, fieldIs_other _ _ _ _ _ _ n3, fieldIs_other _ _ _ _ _ _ n5,
        objFieldIs_other _ _ _ _ _ n4]
    exact ih a b c d ma mi

theorem unmarshalProtocol_iff (data : Bytes) (p : FullProtocol) :
    unmarshalProtocol data zeroProtocol = ⟨p, none⟩ ↔ ∃ v, JsonText data v ∧ DescribesProtocol v p := by
  unfold unmarshalProtocol
  have hp := parse_iff data
  cases h : parse data with
  | none =>
    constructor
    · intro h; simp at h
    · rintro ⟨v, hv, _⟩
      rw [← hp, h] at hv
      cases hv
  | some v =>
    have hv := (hp v).1 h
    have uniq : (∃ v, JsonText data v ∧ DescribesProtocol v p) ↔ DescribesProtocol v p :=
      ⟨fun ⟨v', h1, h2⟩ => jsonText_unique data v v' hv h1 ▸ h2, fun h => ⟨v, hv, h⟩⟩
    rw [uniq]
    unfold DescribesProtocol
    cases v with
    | null => simp [zeroProtocol, eq_comm]
    | obj ms => simp [protocol_fold]
    | bool x => simp
    | num x => simp
    | str x => simp
    | arr x => simp

/-! ### C69: loading a file -/

/-- **C69**. Loading succeeds with `p` exactly if the file can be read, its contents are a JSON text, and the value states `p`. -/
theorem C69_load_iff (read : Bytes → Res Bytes) (fp : Bytes) (p : FullProtocol) :
    loadProtocol read fp = ⟨p, none⟩ ↔ ∃ data v, read fp = .ok data ∧ JsonText data v ∧ DescribesProtocol v p := by
  unfold loadProtocol
  cases h : read fp with
  | ok data =>
    simp only [loadProtocolFromBytes, unmarshalProtocol_iff, Res.ok.injEq]
    constructor
    · rintro ⟨v, hv⟩; exact ⟨data, v, rfl, hv⟩
    · rintro ⟨_, v, rfl, hv⟩; exact ⟨v, hv⟩
  | err e => simp
  | panic => simp

/-- The members name the field once, with this value. -/
def Once (ms : List (Bytes × JVal)) (name : Bytes) (v : JVal) : Prop :=
  ∃ a k b, ms = a ++ (k, v) :: b ∧ SameName k name ∧ ∀ m ∈ a ++ b, ¬ SameName m.1 name

theorem fieldIs_append_other (bits : Nat) (name : Bytes) (ms b : List (Bytes × JVal)) (n : Nat) (hb : ∀ m ∈ b, ¬ SameName m.1 name) :
    FieldIs bits name (ms ++ b) n ↔ FieldIs bits name ms n := by
  induction b using snoc_induction with
  | h0 => rw [List.append_nil]
  | h1 b m ih =>
    rw [← List.append_assoc, fieldIs_other _ _ _ m.1 m.2 _ (hb m (by simp))]
    exact ih (fun x hx => hb x (by simp [hx]))

theorem fieldIs_none (bits : Nat) (name : Bytes) (b : List (Bytes × JVal)) (n : Nat) (hb : ∀ m ∈ b, ¬ SameName m.1 name) :
    FieldIs bits name b n ↔ n = 0 := by
  have := fieldIs_append_other bits name [] b n hb
  rwa [List.nil_append, fieldIs_nil] at this

theorem objFieldIs_append_other (name : Bytes) (ms b os : List (Bytes × JVal)) (hb : ∀ m ∈ b, ¬ SameName m.1 name) :
    ObjFieldIs name (ms ++ b) os ↔ ObjFieldIs name ms os := by
  induction b using snoc_induction with
  | h0 => rw [List.append_nil]
  | h1 b m ih =>
    rw [← List.append_assoc, objFieldIs_other _ _ m.1 m.2 _ (hb m (by simp))]
    exact ih (fun x hx => hb x (by simp [hx]))

theorem objFieldIs_none (name : Bytes) (b os : List (Bytes × JVal)) (hb : ∀ m ∈ b, ¬ SameName m.1 name) :
    ObjFieldIs name b os ↔ os = [] := by
  have := objFieldIs_append_other name [] b os hb
  rwa [List.nil_append, objFieldIs_nil] at this

theorem fieldIs_once (bits : Nat) (name lit : Bytes) (ms : List (Bytes × JVal)) (n : Nat) (h : Once ms name (.num lit)) (hl : UintLit bits lit n) :
    FieldIs bits name ms n := by
  obtain ⟨a, k, b, rfl, hk, ho⟩ := h
  rw [show a ++ (k, JVal.num lit) :: b = (a ++ [(k, .num lit)]) ++ b by simp,
    fieldIs_append_other _ _ _ _ _ (fun m hm => ho m (by simp [hm]))]
  exact .set a 0 n k lit ((fieldIs_none _ _ _ _ (fun m hm => ho m (by simp [hm]))).2 rfl) hk hl

theorem objFieldIs_once (name : Bytes) (ms vs : List (Bytes × JVal)) (h : Once ms name (.obj vs)) : ObjFieldIs name ms vs := by
  obtain ⟨a, k, b, rfl, hk, ho⟩ := h
  rw [show a ++ (k, JVal.obj vs) :: b = (a ++ [(k, .obj vs)]) ++ b by simp,
    objFieldIs_append_other _ _ _ _ (fun m hm => ho m (by simp [hm]))]
  exact .set a [] vs k ((objFieldIs_none _ _ _ (fun m hm => ho m (by simp [hm]))).2 rfl) hk

/-- **C69** (a complete file). A JSON object that names each parameter once, with a natural number in range, is loaded as those numbers, whatever
the order, the whitespace, the escapes in the names and the other members. -/
theorem C69_complete_file (read : Bytes → Res Bytes) (fp data : Bytes) (ms vs : List (Bytes × JVal)) (l1 l2 l3 l4 l5 l6 : Bytes) (p : FullProtocol)
    (hr : read fp = .ok data) (hd : JsonText data (.obj ms))
    (h1 : Once ms (asc ['t','x','F','e','e','P','e','r','B','y','t','e']) (.num l1)) (n1 : UintLit 64 l1 p.params.txFeePerByte.toNat)
    (h2 : Once ms (asc ['t','x','F','e','e','F','i','x','e','d']) (.num l2)) (n2 : UintLit 64 l2 p.params.txFeeFixed.toNat)
    (h3 : Once ms (asc ['m','a','x','T','x','S','i','z','e']) (.num l3)) (n3 : UintLit 64 l3 p.params.maxTxSize.toNat)
    (h4 : Once ms (asc ['m','i','n','U','T','x','O','V','a','l','u','e']) (.num l4)) (n4 : UintLit 64 l4 p.params.minUTXOValue.toNat)
    (hv : Once ms (asc ['p','r','o','t','o','c','o','l','V','e','r','s','i','o','n']) (.obj vs))
    (h5 : Once vs (asc ['m','a','j','o','r']) (.num l5)) (n5 : UintLit 8 l5 p.major.toNat)
    (h6 : Once vs (asc ['m','i','n','o','r']) (.num l6)) (n6 : UintLit 8 l6 p.minor.toNat) :
    loadProtocol read fp = ⟨p, none⟩ :=
  (C69_load_iff read fp p).2 ⟨data, .obj ms, hr, hd, Or.inr ⟨ms, rfl, fieldIs_once _ _ _ _ _ h1 n1, fieldIs_once _ _ _ _ _ h2 n2, fieldIs_once _ _ _ _ _ h3 n3,
    fieldIs_once _ _ _ _ _ h4 n4, vs, objFieldIs_once _ _ _ hv, fieldIs_once _ _ _ _ _ h5 n5, fieldIs_once _ _ _ _ _ h6 n6⟩⟩

theorem fieldIs_member (bits : Nat) (name : Bytes) (ms : List (Bytes × JVal)) (n : Nat) (h : FieldIs bits name ms n) :
    ∀ m ∈ ms, SameName m.1 name → m.2 = .null ∨ ∃ lit x, m.2 = .num lit ∧ UintLit bits lit x := by
  induction h with
  | start => intro m hm; cases hm
  | other ms n k v h hk ih =>
    intro m hm hs
    rcases List.mem_append.1 hm with hm | hm
    · exact ih m hm hs
    · rw [List.mem_singleton] at hm; subst hm; exact absurd hs hk
  | null ms n k h hk ih =>
    intro m hm hs
    rcases List.mem_append.1 hm with hm | hm
    · exact ih m hm hs
    · rw [List.mem_singleton] at hm; subst hm; exact Or.inl rfl
  | set ms x n k lit h hk hn ih =>
    intro m hm hs
    rcases List.mem_append.1 hm with hm | hm
    · exact ih m hm hs
    · rw [List.mem_singleton] at hm; subst hm; exact Or.inr ⟨lit, n, rfl, hn⟩

/-- **C69** (nothing is truncated or guessed). A file in which one of the parameters has a value that is neither null nor a natural number of 64 bits
is refused with an error. -/
theorem C69_bad_value_reported (read : Bytes → Res Bytes) (fp data : Bytes) (ms : List (Bytes × JVal)) (name k : Bytes) (v : JVal)
    (hr : read fp = .ok data) (hd : JsonText data (.obj ms))
    (hname : name ∈ [asc ['t','x','F','e','e','P','e','r','B','y','t','e'], asc ['t','x','F','e','e','F','i','x','e','d'], asc ['m','a','x','T','x','S','i','z','e'],
      asc ['m','i','n','U','T','x','O','V','a','l','u','e']])
    (hm : (k, v) ∈ ms) (hk : SameName k name) (hn : v ≠ .null) (hv : ∀ lit x, v = .num lit → ¬ UintLit 64 lit x) :
    (loadProtocol read fp).err ≠ none := by
  intro he
  obtain ⟨data', v', h1, h2, h3⟩ := (C69_load_iff read fp (loadProtocol read fp).value).1 (by rw [← he])
  rw [hr] at h1
  cases h1
  cases jsonText_unique _ _ _ hd h2
  rcases h3 with ⟨h, _⟩ | ⟨ms', h, s1, s2, s3, s4, _⟩
  · cases h
  · cases h
    have key : ∃ n, FieldIs 64 name ms n := by
      simp only [List.mem_cons, List.not_mem_nil, or_false] at hname
      rcases hname with rfl | rfl | rfl | rfl
      · exact ⟨_, s1⟩
      · exact ⟨_, s2⟩
      · exact ⟨_, s3⟩
      · exact ⟨_, s4⟩
    obtain ⟨n, hf⟩ := key
    rcases fieldIs_member _ _ _ _ hf _ hm hk with h | ⟨lit, x, h, hu⟩
    · exact hn h
    · exact hv lit x h hu

theorem objFieldIs_member (name : Bytes) (ms os : List (Bytes × JVal)) (h : ObjFieldIs name ms os) :
    ∀ m ∈ ms, SameName m.1 name → m.2 = .null ∨ ∃ ns, m.2 = .obj ns ∧ ∀ x ∈ ns, x ∈ os := by
  induction h with
  | start => intro m hm; cases hm
  | other ms os k v h hk ih =>
    intro m hm hs
    rcases List.mem_append.1 hm with hm | hm
    · exact ih m hm hs
    · rw [List.mem_singleton] at hm; subst hm; exact absurd hs hk
  | null ms os k h hk ih =>
    intro m hm hs
    rcases List.mem_append.1 hm with hm | hm
    · exact ih m hm hs
    · rw [List.mem_singleton] at hm; subst hm; exact Or.inl rfl
  | set ms os ns k h hk ih =>
    intro m hm hs
    rcases List.mem_append.1 hm with hm | hm
    · rcases ih m hm hs with h | ⟨ns', h, hx⟩
      · exact Or.inl h
      · exact Or.inr ⟨ns', h, fun x hx' => List.mem_append_left _ (hx x hx')⟩
    · rw [List.mem_singleton] at hm; subst hm; exact Or.inr ⟨ns, rfl, fun x hx => List.mem_append_right _ hx⟩

/-- **C69** (the version). The same for the protocol version: it must be null or an object, and the numbers in it natural numbers below 256. -/
theorem C69_bad_version_reported (read : Bytes → Res Bytes) (fp data : Bytes) (ms : List (Bytes × JVal)) (k : Bytes) (v : JVal)
    (hr : read fp = .ok data) (hd : JsonText data (.obj ms))
    (hm : (k, v) ∈ ms) (hk : SameName k (asc ['p','r','o','t','o','c','o','l','V','e','r','s','i','o','n'])) (hn : v ≠ .null)
    (hv : ∀ ns, v = .obj ns → ∃ k' v' name, (k', v') ∈ ns ∧ name ∈ [asc ['m','a','j','o','r'], asc ['m','i','n','o','r']] ∧ SameName k' name ∧ v' ≠ .null ∧
      ∀ lit x, v' = .num lit → ¬ UintLit 8 lit x) :
    (loadProtocol read fp).err ≠ none := by
  intro he
  obtain ⟨data', v', h1, h2, h3⟩ := (C69_load_iff read fp (loadProtocol read fp).value).1 (by rw [← he])
  rw [hr] at h1
  cases h1
  cases jsonText_unique _ _ _ hd h2
  rcases h3 with ⟨h, _⟩ | ⟨ms', h, _, _, _, _, vs, hvs, hma, hmi⟩
  · cases h
  · cases h
    rcases objFieldIs_member _ _ _ hvs _ hm hk with h | ⟨ns, h, hsub⟩
    · exact hn h
    · obtain ⟨k', v', name, hmem, hname, hk', hn', hv'⟩ := hv ns h
      have key : ∃ n, FieldIs 8 name vs n := by
        simp only [List.mem_cons, List.not_mem_nil, or_false] at hname
        rcases hname with rfl | rfl
        · exact ⟨_, hma⟩
        · exact ⟨_, hmi⟩
      obtain ⟨n, hf⟩ := key
      rcases fieldIs_member _ _ _ _ hf _ (hsub _ hmem) hk' with h | ⟨lit, x, h, hu⟩
      · exact hn' h
      · exact hv' lit x h hu

/-- /repo/testdata/protocol/protocol.json. -/
def sampleFile : Bytes := [123, 10, 32, 32, 32, 32, 34, 116, 120, 70, 101, 101, 80, 101, 114, 66, 121, 116, 101, 34, 58, 32, 52, 52, 44, 10, 32, 32, 32, 32, 34, 109, 105, 110,
  85, 84, 120, 79, 86, 97, 108, 117, 101, 34, 58, 32, 49, 48, 48, 48, 48, 48, 48, 44, 10, 32, 32, 32, 32, 34, 100, 101, 99, 101, 110, 116, 114, 97,
  108, 105, 122, 97, 116, 105, 111, 110, 34, 58, 32, 48, 44, 10, 32, 32, 32, 32, 34, 117, 116, 120, 111, 67, 111, 115, 116, 80, 101, 114, 87, 111, 114,
  100, 34, 58, 32, 110, 117, 108, 108, 44, 10, 32, 32, 32, 32, 34, 115, 116, 97, 107, 101, 80, 111, 111, 108, 68, 101, 112, 111, 115, 105, 116, 34, 58,
  32, 53, 48, 48, 48, 48, 48, 48, 48, 48, 44, 10, 32, 32, 32, 32, 34, 112, 111, 111, 108, 82, 101, 116, 105, 114, 101, 77, 97, 120, 69, 112, 111, 99,
  104, 34, 58, 32, 49, 56, 44, 10, 32, 32, 32, 32, 34, 101, 120, 116, 114, 97, 80, 114, 97, 111, 115, 69, 110, 116, 114, 111, 112, 121, 34, 58, 32,
  110, 117, 108, 108, 44, 10, 32, 32, 32, 32, 34, 99, 111, 108, 108, 97, 116, 101, 114, 97, 108, 80, 101, 114, 99, 101, 110, 116, 97, 103, 101, 34, 58,
  32, 110, 117, 108, 108, 44, 10, 32, 32, 32, 32, 34, 115, 116, 97, 107, 101, 80, 111, 111, 108, 84, 97, 114, 103, 101, 116, 78, 117, 109, 34, 58, 32,
  53, 48, 48, 44, 10, 32, 32, 32, 32, 34, 109, 97, 120, 66, 108, 111, 99, 107, 66, 111, 100, 121, 83, 105, 122, 101, 34, 58, 32, 54, 53, 53, 51, 54,
  44, 10, 32, 32, 32, 32, 34, 109, 105, 110, 80, 111, 111, 108, 67, 111, 115, 116, 34, 58, 32, 51, 52, 48, 48, 48, 48, 48, 48, 48, 44, 10, 32, 32, 32,
  32, 34, 109, 97, 120, 84, 120, 83, 105, 122, 101, 34, 58, 32, 49, 54, 51, 56, 52, 44, 10, 32, 32, 32, 32, 34, 116, 114, 101, 97, 115, 117, 114, 121,
  67, 117, 116, 34, 58, 32, 48, 46, 50, 44, 10, 32, 32, 32, 32, 34, 109, 97, 120, 66, 108, 111, 99, 107, 69, 120, 101, 99, 117, 116, 105, 111, 110, 85,
  110, 105, 116, 115, 34, 58, 32, 110, 117, 108, 108, 44, 10, 32, 32, 32, 32, 34, 109, 97, 120, 67, 111, 108, 108, 97, 116, 101, 114, 97, 108, 73, 110,
  112, 117, 116, 115, 34, 58, 32, 110, 117, 108, 108, 44, 10, 32, 32, 32, 32, 34, 109, 97, 120, 86, 97, 108, 117, 101, 83, 105, 122, 101, 34, 58, 32,
  110, 117, 108, 108, 44, 10, 32, 32, 32, 32, 34, 109, 97, 120, 66, 108, 111, 99, 107, 72, 101, 97, 100, 101, 114, 83, 105, 122, 101, 34, 58, 32, 49,
  49, 48, 48, 44, 10, 32, 32, 32, 32, 34, 109, 97, 120, 84, 120, 69, 120, 101, 99, 117, 116, 105, 111, 110, 85, 110, 105, 116, 115, 34, 58, 32, 110,
  117, 108, 108, 44, 10, 32, 32, 32, 32, 34, 99, 111, 115, 116, 77, 111, 100, 101, 108, 115, 34, 58, 32, 123, 125, 44, 10, 32, 32, 32, 32, 34, 112,
  114, 111, 116, 111, 99, 111, 108, 86, 101, 114, 115, 105, 111, 110, 34, 58, 32, 123, 10, 32, 32, 32, 32, 32, 32, 32, 32, 34, 109, 105, 110, 111, 114,
  34, 58, 32, 48, 44, 10, 32, 32, 32, 32, 32, 32, 32, 32, 34, 109, 97, 106, 111, 114, 34, 58, 32, 52, 10, 32, 32, 32, 32, 125, 44, 10, 32, 32, 32, 32,
  34, 116, 120, 70, 101, 101, 70, 105, 120, 101, 100, 34, 58, 32, 49, 53, 53, 51, 56, 49, 44, 10, 32, 32, 32, 32, 34, 115, 116, 97, 107, 101, 65, 100,
  100, 114, 101, 115, 115, 68, 101, 112, 111, 115, 105, 116, 34, 58, 32, 50, 48, 48, 48, 48, 48, 48, 44, 10, 32, 32, 32, 32, 34, 109, 111, 110, 101,
  116, 97, 114, 121, 69, 120, 112, 97, 110, 115, 105, 111, 110, 34, 58, 32, 51, 46, 48, 101, 45, 51, 44, 10, 32, 32, 32, 32, 34, 112, 111, 111, 108,
  80, 108, 101, 100, 103, 101, 73, 110, 102, 108, 117, 101, 110, 99, 101, 34, 58, 32, 48, 46, 51, 44, 10, 32, 32, 32, 32, 34, 101, 120, 101, 99, 117,
  116, 105, 111, 110, 85, 110, 105, 116, 80, 114, 105, 99, 101, 115, 34, 58, 32, 110, 117, 108, 108, 10, 125]

/-- The file of the repository's tests is loaded as its test expects; so every hypothesis of `C69_load_iff` is met by it. -/
theorem sampleFile_loads : loadProtocol (fun _ => .ok sampleFile) [] = ⟨⟨⟨44, 155381, 16384, 1000000⟩, 4, 0⟩, none⟩ := by decide +kernel

example : ∃ v, JsonText sampleFile v ∧ DescribesProtocol v ⟨⟨44, 155381, 16384, 1000000⟩, 4, 0⟩ := by
  obtain ⟨data, v, h, hv⟩ := (C69_load_iff _ _ _).1 sampleFile_loads
  cases h
  exact ⟨v, hv⟩

/-- A file giving the major version as 260, and one giving a fee with a fraction, are refused. -/
example : (loadProtocol (fun _ => .ok (asc ['{','"','p','r','o','t','o','c','o','l','V','e','r','s','i','o','n','"',':','{','"','m','a','j','o','r','"',':','2','6','0','}','}'])) []).err ≠ none ∧
    (loadProtocol (fun _ => .ok (asc ['{','"','t','x','F','e','e','F','i','x','e','d','"',':','1','.','5','}'])) []).err ≠ none := by decide +kernel

/-! ### C70: parameters the file does not state -/

/-- **C70** (what holds). A parameter that is loaded as something else than zero is stated in the file, under its name, as that number. -/
theorem C70_nonzero_is_stated (read : Bytes → Res Bytes) (fp : Bytes) (p : FullProtocol) (h : loadProtocol read fp = ⟨p, none⟩) :
    ∀ name n, ((name = asc ['t','x','F','e','e','P','e','r','B','y','t','e'] ∧ n = p.params.txFeePerByte.toNat) ∨
      (name = asc ['t','x','F','e','e','F','i','x','e','d'] ∧ n = p.params.txFeeFixed.toNat) ∨ (name = asc ['m','a','x','T','x','S','i','z','e'] ∧ n = p.params.maxTxSize.toNat) ∨
      (name = asc ['m','i','n','U','T','x','O','V','a','l','u','e'] ∧ n = p.params.minUTXOValue.toNat)) → n ≠ 0 →
    ∃ data ms k lit, read fp = .ok data ∧ JsonText data (.obj ms) ∧ (k, .num lit) ∈ ms ∧ SameName k name ∧ UintLit 64 lit n := by
  intro name n hn h0
  have stated : ∀ ms n, FieldIs 64 name ms n → n ≠ 0 → ∃ k lit, (k, JVal.num lit) ∈ ms ∧ SameName k name ∧ UintLit 64 lit n := by
    intro ms n h
    induction h with
    | start => intro h; exact absurd rfl h
    | other ms n k v h hk ih =>
      intro h0
      obtain ⟨k', lit, h1, h2⟩ := ih h0
      exact ⟨k', lit, List.mem_append_left _ h1, h2⟩
    | null ms n k h hk ih =>
      intro h0
      obtain ⟨k', lit, h1, h2⟩ := ih h0
      exact ⟨k', lit, List.mem_append_left _ h1, h2⟩
    | set ms m n k lit h hk hn ih => intro _; exact ⟨k, lit, by simp, hk, hn⟩
  obtain ⟨data, v, h1, h2, h3⟩ := (C69_load_iff read fp p).1 h
  rcases h3 with ⟨_, rfl⟩ | ⟨ms, rfl, s1, s2, s3, s4, _⟩
  · rcases hn with h | h | h | h <;> exact absurd h.2 h0
  · have key : FieldIs 64 name ms n := by
      rcases hn with ⟨rfl, rfl⟩ | ⟨rfl, rfl⟩ | ⟨rfl, rfl⟩ | ⟨rfl, rfl⟩
      · exact s1
      · exact s2
      · exact s3
      · exact s4
    obtain ⟨k, lit, hk⟩ := stated ms n key h0
    exact ⟨data, ms, k, lit, h1, h2, hk⟩

/-- **C70** (what fails). The property asks for an error when a parameter is not stated. Instead any JSON object without the names, and `null`, are
loaded as zero fees, zero sizes and version 0.0, without an error. -/
theorem C70_unstated_is_zero_partial (read : Bytes → Res Bytes) (fp data : Bytes) (hr : read fp = .ok data)
    (hd : JsonText data .null ∨ ∃ ms, JsonText data (.obj ms) ∧ ∀ m ∈ ms, ∀ name ∈ [asc ['t','x','F','e','e','P','e','r','B','y','t','e'],
      asc ['t','x','F','e','e','F','i','x','e','d'], asc ['m','a','x','T','x','S','i','z','e'], asc ['m','i','n','U','T','x','O','V','a','l','u','e'],
      asc ['p','r','o','t','o','c','o','l','V','e','r','s','i','o','n']], ¬ SameName m.1 name) :
    loadProtocol read fp = ⟨⟨⟨0, 0, 0, 0⟩, 0, 0⟩, none⟩ := by
  rw [C69_load_iff]
  rcases hd with hd | ⟨ms, hd, hn⟩
  · exact ⟨data, .null, hr, hd, Or.inl ⟨rfl, rfl⟩⟩
  · refine ⟨data, .obj ms, hr, hd, Or.inr ⟨ms, rfl, ?_, ?_, ?_, ?_, [], ?_, ?_, ?_⟩⟩
    · exact (fieldIs_none _ _ _ _ (fun m hm => hn m hm _ (by simp))).2 rfl
    · exact (fieldIs_none _ _ _ _ (fun m hm => hn m hm _ (by simp))).2 rfl
    · exact (fieldIs_none _ _ _ _ (fun m hm => hn m hm _ (by simp))).2 rfl
    · exact (fieldIs_none _ _ _ _ (fun m hm => hn m hm _ (by simp))).2 rfl
    · exact (objFieldIs_none _ _ _ (fun m hm => hn m hm _ (by simp))).2 rfl
    · exact (fieldIs_nil _ _ _).2 rfl
    · exact (fieldIs_nil _ _ _).2 rfl

/-- The empty object; a file of the Byron era's names, say; a file whose only member is misspelt. -/
example : loadProtocol (fun _ => .ok [0x7b, 0x7d]) [] = ⟨⟨⟨0, 0, 0, 0⟩, 0, 0⟩, none⟩ :=
  C70_unstated_is_zero_partial _ _ [0x7b, 0x7d] rfl (Or.inr ⟨[], ⟨[], [0x7b, 0x7d], [], rfl, by simp [Ws], by simp [Ws],
    .obj0 9999 [] (by simp [Ws])⟩, by simp⟩)

/-! ### C71: what `cardano-cli` answers -/

/-- The JSON value states this tip; `null` states nothing. -/
def DescribesTip (v : JVal) (t : NetworkTip) : Prop :=
  (v = .null ∧ t = ⟨0, 0, 0⟩) ∨ ∃ ms, v = .obj ms ∧ FieldIs 64 (asc ['s','l','o','t']) ms t.slot.toNat ∧ FieldIs 64 (asc ['e','p','o','c','h']) ms t.epoch.toNat ∧
    FieldIs 64 (asc ['b','l','o','c','k']) ms t.block.toNat

theorem tip_fold (ms : List (Bytes × JVal)) : ∀ a b c : UInt64, ms.foldl storeTipMember ⟨⟨0, 0, 0⟩, none⟩ = ⟨⟨a, b, c⟩, none⟩ ↔
    FieldIs 64 nSlot ms a.toNat ∧ FieldIs 64 nEpoch ms b.toNat ∧ FieldIs 64 nBlock ms c.toNat := by
  induction ms using snoc_induction with
  | h0 =>
    intro a b c
    simp only [fieldIs_nil, List.foldl_nil, Out.mk.injEq, NetworkTip.mk.injEq]
    constructor
    · rintro ⟨⟨rfl, rfl, rfl⟩, _⟩; exact ⟨rfl, rfl, rfl⟩
    · rintro ⟨h1, h2, h3⟩
      exact ⟨⟨(UInt64.toNat_inj.1 h1).symm, (UInt64.toNat_inj.1 h2).symm, (UInt64.toNat_inj.1 h3).symm⟩, trivial⟩
  | h1 ms m ih =>
    obtain ⟨k, v⟩ := m
    intro a b c
    rw [List.foldl_append, List.foldl_cons, List.foldl_nil]
    generalize ms.foldl storeTipMember ⟨⟨0, 0, 0⟩, none⟩ = st at ih ⊢
    obtain ⟨⟨a0, b0, c0⟩, e0⟩ := st
    simp only [Out.mk.injEq, NetworkTip.mk.injEq] at ih
    unfold storeTipMember
    by_cases h1 : keyMatches nSlot k = true
    · have hk := (keyMatches_iff _ k (by decide)).1 h1
      have k2 := names_disjoint _ nEpoch k hk (by decide) (by decide) (by decide)
      have k3 := names_disjoint _ nBlock k hk (by decide) (by decide) (by decide)
      simp only [h1, if_true, Out.mk.injEq, NetworkTip.mk.injEq, saveError_none]
      simp only [field64_step _ _ _ _ _ hk, fieldIs_other _ _ _ _ _ _ k2, fieldIs_other _ _ _ _ _ _ k3]
      constructor
      · rintro ⟨⟨h2, rfl, rfl⟩, rfl, h4⟩
        have := (ih a0 b0 c0).1 ⟨⟨rfl, rfl, rfl⟩, rfl⟩
        exact ⟨⟨a0, this.1, (store64 a0 a v).1 ⟨h4, h2⟩⟩, this.2⟩
      · rintro ⟨⟨x, h2, h3⟩, h4⟩
        obtain ⟨⟨rfl, rfl, rfl⟩, rfl⟩ := (ih x b c).2 ⟨h2, h4⟩
        have := (store64 a0 a v).2 h3
        exact ⟨⟨this.2, rfl, rfl⟩, rfl, this.1⟩
    have n1 : ¬ SameName k nSlot := by rwa [← keyMatches_iff _ k (by decide)]
    by_cases h2 : keyMatches nEpoch k = true
    · have hk := (keyMatches_iff _ k (by decide)).1 h2
      have k3 := names_disjoint _ nBlock k hk (by decide) (by decide) (by decide)
      simp only [h1, h2, Bool.false_eq_true, if_false, if_true, Out.mk.injEq, NetworkTip.mk.injEq, saveError_none]
      simp only [field64_step _ _ _ _ _ hk, fieldIs_other _ _ _ _ _ _ n1, fieldIs_other _ _ _ _ _ _ k3]
      constructor
      · rintro ⟨⟨rfl, h2, rfl⟩, rfl, h4⟩
        have := (ih a0 b0 c0).1 ⟨⟨rfl, rfl, rfl⟩, rfl⟩
        exact ⟨this.1, ⟨b0, this.2.1, (store64 b0 b v).1 ⟨h4, h2⟩⟩, this.2.2⟩
      · rintro ⟨ha, ⟨x, h2, h3⟩, h4⟩
        obtain ⟨⟨rfl, rfl, rfl⟩, rfl⟩ := (ih a x c).2 ⟨ha, h2, h4⟩
        have := (store64 b0 b v).2 h3
        exact ⟨⟨rfl, this.2, rfl⟩, rfl, this.1⟩
    have n2 : ¬ SameName k nEpoch := by rwa [← keyMatches_iff _ k (by decide)]
    by_cases h3 : keyMatches nBlock k = true
    · have hk := (keyMatches_iff _ k (by decide)).1 h3
      simp only [h1, h2, h3, Bool.false_eq_true, if_false, if_true, Out.mk.injEq, NetworkTip.mk.injEq, saveError_none]
      simp only [field64_step _ _ _ _ _ hk, fieldIs_other _ _ _ _ _ _ n1, fieldIs_other _ _ _ _ _ _ n2]
      constructor
      · rintro ⟨⟨rfl, rfl, h2⟩, rfl, h4⟩
        have := (ih a0 b0 c0).1 ⟨⟨rfl, rfl, rfl⟩, rfl⟩
        exact ⟨this.1, this.2.1, c0, this.2.2, (store64 c0 c v).1 ⟨h4, h2⟩⟩
      · rintro ⟨ha, hb, x, h2, h3⟩
        obtain ⟨⟨rfl, rfl, rfl⟩, rfl⟩ := (ih a b x).2 ⟨ha, hb, h2⟩
        have := (store64 c0 c v).2 h3
        exact ⟨⟨rfl, rfl, this.2⟩, rfl, this.1⟩
    have n3 : ¬ SameName k nBlock := by rwa [← keyMatches_iff _ k (by decide)]
    simp only [h1, h2, h3, Bool.false_eq_true, if_false, Out.mk.injEq, NetworkTip.mk.injEq]
    simp only [fieldIs_other _ _ _ _ _ _ n1, fieldIs_other _ _ _ _ _ _ n2, fieldIs_other _ _ _ _ _ _ n3]
    exact ih a b c

theorem unmarshalTip_iff (data : Bytes) (p : NetworkTip) :
    unmarshalTip data ⟨0, 0, 0⟩ = ⟨p, none⟩ ↔ ∃ v, JsonText data v ∧ DescribesTip v p := by
  unfold unmarshalTip
  have hp := parse_iff data
  cases h : parse data with
  | none =>
    constructor
    · intro h; simp at h
    · rintro ⟨v, hv, _⟩
      rw [← hp, h] at hv
      cases hv
  | some v =>
    have hv := (hp v).1 h
    have uniq : (∃ v, JsonText data v ∧ DescribesTip v p) ↔ DescribesTip v p :=
      ⟨fun ⟨v', h1, h2⟩ => jsonText_unique data v v' hv h1 ▸ h2, fun h => ⟨v, hv, h⟩⟩
    rw [uniq]
    unfold DescribesTip
    obtain ⟨a, b, c⟩ := p
    cases v with
    | null => simp [eq_comm]
    | obj ms => simp [tip_fold, nSlot, nEpoch, nBlock]
    | bool x => simp
    | num x => simp
    | str x => simp
    | arr x => simp

theorem parse_nil : parse [] = none := rfl

/-- **C71** (`ProtocolParameters`). The call runs one command (the last argument selects the network, C44); it returns `p` without an error exactly if
the command succeeds and prints a JSON text that states `p`. In particular a failing command is reported. -/
theorem C71_protocol_iff (net : NetworkInfo) : ∃ sel, ∀ (run : List Bytes → Res Bytes) (p : FullProtocol),
    cliProtocolParameters run net = ⟨p, none⟩ ↔
      ∃ data v, run [asc ['q','u','e','r','y'], asc ['p','r','o','t','o','c','o','l','-','p','a','r','a','m','e','t','e','r','s'], sel] = .ok data ∧
        JsonText data v ∧ DescribesProtocol v p := by
  obtain ⟨sel, hsel⟩ : ∃ sel, ∀ args, cliArgs net args = args ++ [sel] := ⟨_, fun _ => rfl⟩
  refine ⟨sel, fun run p => ?_⟩
  unfold cliProtocolParameters execCommand
  simp only [hsel, List.cons_append, List.nil_append]
  generalize run _ = r
  cases r with
  | ok data =>
    simp only [outputOf, Res.ok.injEq]
    rw [show (∃ data_1 v, data = data_1 ∧ JsonText data_1 v ∧ DescribesProtocol v p) ↔ ∃ v, JsonText data v ∧ DescribesProtocol v p by simp,
      ← unmarshalProtocol_iff]
    generalize unmarshalProtocol data zeroProtocol = o
    obtain ⟨o, e⟩ := o
    cases e <;> simp
  | err e => simp [outputOf, unmarshalProtocol, parse_nil]
  | panic => simp [outputOf, unmarshalProtocol, parse_nil]

/-- **C71** (`QueryTip`). -/
theorem C71_tip_iff (net : NetworkInfo) : ∃ sel, ∀ (run : List Bytes → Res Bytes) (t : NetworkTip),
    cliQueryTip run net = ⟨t, none⟩ ↔
      ∃ data v, run [asc ['q','u','e','r','y'], asc ['t','i','p'], sel] = .ok data ∧ JsonText data v ∧ DescribesTip v t := by
  obtain ⟨sel, hsel⟩ : ∃ sel, ∀ args, cliArgs net args = args ++ [sel] := ⟨_, fun _ => rfl⟩
  refine ⟨sel, fun run p => ?_⟩
  unfold cliQueryTip execCommand
  simp only [hsel, List.cons_append, List.nil_append]
  generalize run _ = r
  cases r with
  | ok data =>
    simp only [outputOf, Res.ok.injEq]
    rw [show (∃ data_1 v, data = data_1 ∧ JsonText data_1 v ∧ DescribesTip v p) ↔ ∃ v, JsonText data v ∧ DescribesTip v p by simp,
      ← unmarshalTip_iff]
    generalize unmarshalTip data ⟨0, 0, 0⟩ = o
    obtain ⟨o, e⟩ := o
    cases e <;> simp
  | err e => simp [outputOf, unmarshalTip, parse_nil]
  | panic => simp [outputOf, unmarshalTip, parse_nil]

/-- A tip as `cardano-cli` prints it, and a command that fails. -/
example : cliQueryTip (fun _ => .ok (asc ['{',' ','"','b','l','o','c','k','"',':',' ','3','1',',','\n','"','s','l','o','t','"',':','7',',','"','E','P','O','C','H','"',
      ':','2',',','"','e','r','a','"',':','"','A','l','o','n','z','o','"','}','\n'])) MainNet = ⟨⟨7, 2, 31⟩, none⟩ ∧
    (cliQueryTip (fun _ => .err "exit status 1") MainNet).err ≠ none ∧
    cliProtocolParameters (fun _ => .ok sampleFile) TestNet = ⟨⟨⟨44, 155381, 16384, 1000000⟩, 4, 0⟩, none⟩ := by decide +kernel

/-! ### C63: the file for `cardano-cli` -/

theorem isHexOf_plain {s b : Bytes} (h : IsHexOf s b) : StrText s s := by
  have plain : ∀ c : UInt8, hexVal c ≠ none → 0x20 ≤ c.toNat ∧ c ≠ 0x22 ∧ c ≠ 0x5c := forall_byte (by decide +kernel)
  have hs := IsHexOf.good h
  have : ∀ s : Bytes, (∀ c ∈ s, hexVal c ≠ none) → StrText s s := by
    intro s
    induction s with
    | nil => intro _; exact .nil
    | cons c s ih =>
      intro hc
      have := plain c (hc c (List.mem_cons_self ..))
      exact .plain c s s this.1 this.2.1 this.2.2 (ih (fun x hx => hc x (List.mem_cons_of_mem _ hx)))
  exact this s hs.2

theorem strText_ascii (s : Bytes) (h : ∀ c ∈ s, 0x20 ≤ c.toNat ∧ c ≠ 0x22 ∧ c ≠ 0x5c) : StrText s s := by
  induction s with
  | nil => exact .nil
  | cons c s ih =>
    have := h c (List.mem_cons_self ..)
    exact .plain c s s this.1 this.2.1 this.2.2 (ih (fun x hx => h x (List.mem_cons_of_mem _ hx)))

/-- **C63** (`cardano-cli`). The file handed to the tool is a JSON text: an object with three strings, of which `cborHex` is the hexadecimal form of the
bytes of the transaction. -/
theorem C63_cli_file_is_json (C : Crypto) (run : Bytes → List Bytes → Res Bytes) (net : NetworkInfo) (path : Bytes) (t : Tx) (k : Nat) (bs : Bytes)
    (h : Transaction.bytes C t k = .ok bs) :
    ∃ file hexa sel, cliSubmitTx C run net path t k =
        run file [asc ['s','u','b','m','i','t'], asc ['-','-','t','x','-','f','i','l','e',' '] ++ path, sel] ∧
      IsHexOf hexa bs ∧
      JsonText file (.obj [(asc ['t','y','p','e'], .str []), (asc ['d','e','s','c','r','i','p','t','i','o','n'], .str []), (asc ['c','b','o','r','H','e','x'], .str hexa)]) := by
  obtain ⟨hexa, pre, post, h1, h2, hpre, hpost⟩ := C63_cli_submits C run net path t k bs h
  obtain ⟨sel, hsel⟩ : ∃ sel, ∀ args, cliArgs net args = args ++ [sel] := ⟨_, fun _ => rfl⟩
  refine ⟨pre ++ hexa ++ post, hexa, sel, ?_, h1, ?_⟩
  · rw [h2, hsel]; rfl
  · have nl : Ws [0x0a] := by simp [Ws]
    have nltab : Ws [0x0a, 0x09] := by simp [Ws]
    have sp : Ws [0x20] := by simp [Ws]
    have e : Ws [] := by simp [Ws]
    have m3 := MembersText.one 9999 (asc ['c','b','o','r','H','e','x']) (.str hexa) [0x0a, 0x09] _ [] [0x20] _ [0x0a] nltab
      (strText_ascii _ (by decide)) e sp (.str 9999 hexa hexa (isHexOf_plain h1)) nl
    have m2 := MembersText.cons 9999 (asc ['d','e','s','c','r','i','p','t','i','o','n']) (.str []) _ [0x0a, 0x09] _ [] [0x20] _ [] _ nltab
      (strText_ascii _ (by decide)) e sp (.str 9999 [] [] .nil) e m3
    have m1 := MembersText.cons 9999 (asc ['t','y','p','e']) (.str []) _ [0x0a, 0x09] _ [] [0x20] _ [] _ nltab
      (strText_ascii _ (by decide)) e sp (.str 9999 [] [] .nil) e m2
    refine ⟨[], _, [], ?_, e, e, .obj 9999 _ _ m1⟩
    rw [hpre, hpost]
    simp [asc]

end Cardano.Props
