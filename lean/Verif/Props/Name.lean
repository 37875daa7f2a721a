import Verif.Proofs.Name
import Verif.ToyJar
/-! # C64: comparison of distinguished names -/
namespace Apk

/-- The ASCII conversion satisfies the assumptions. -/
theorem lower_lowerCase : LowerCase lower := by
  have step : ∀ c : UInt8, lowerByte c = lowerAscii c := by
    intro c
    have : ∀ n : Fin 256, lowerByte (UInt8.ofNat n.val) = lowerAscii (UInt8.ofNat n.val) := by decide +kernel
    have h := this ⟨c.toNat, c.toNat_lt⟩
    simpa using h
  refine ⟨rfl, fun a c b _ => ?_, fun s c hc hn => ?_⟩
  · simp [lower, step]
  · obtain ⟨x, hx, rfl⟩ := List.mem_map.1 hc
    rw [step] at hn ⊢
    unfold lowerAscii at hn ⊢
    split
    · rename_i h
      right
      have : (UInt8.ofNat (x.toNat + 32)).toNat = x.toNat + 32 := by
        rw [UInt8.toNat_ofNat']; omega
      omega
    · exact .inl hx

/-- C64: two names count as the same exactly when their nine fields are alike, value by value (see `plainValue`). -/
theorem C64_same_name_iff (env : Env1) (hL : LowerCase env.toLower) (a b : PName) :
    SameName env a b ↔ AlikeNames env.toLower a b := sameName_iff hL

/-- C64: for names as they stand in certificates and signatures: the values of country, organization, organizational unit,
    locality, province, street and postal code have to be alike in number and order, and the last common name and the last
    serial number. Nothing else counts: neither attributes of other types nor the order of attributes of different types nor
    the grouping into relative names. -/
theorem C64_parsed_names_iff (env : Env1) (hL : LowerCase env.toLower) (r s : RawRdns) :
    SameName env (fillName r) (fillName s) ↔
      (∀ o ∈ [[2,5,4,6], [2,5,4,10], [2,5,4,11], [2,5,4,7], [2,5,4,8], [2,5,4,9], [2,5,4,17]],
        SameValues env.toLower (valuesOf o r) (valuesOf o s)) ∧
      SameValue env.toLower (lastValue [2,5,4,3] r) (lastValue [2,5,4,3] s) ∧
      SameValue env.toLower (lastValue [2,5,4,5] r) (lastValue [2,5,4,5] s) := by
  rw [sameName_iff hL, fillName_eq, fillName_eq]
  simp only [List.forall_mem_cons, List.not_mem_nil, false_implies, implies_true, and_true]
  exact ⟨fun h => ⟨⟨h.country, h.org, h.orgUnit, h.locality, h.province, h.street, h.postal⟩, h.commonName, h.serialNo⟩,
    fun ⟨⟨h1, h2, h3, h4, h5, h6, h7⟩, h8, h9⟩ => ⟨h1, h2, h3, h4, h5, h6, h7, h8, h9⟩⟩

/-- C64: the comparison is an equivalence (for any conversion to lower case). -/
theorem C64_equivalence (env : Env1) : (∀ a, SameName env a a) ∧ (∀ a b, SameName env a b → SameName env b a) ∧
    ∀ a b c, SameName env a b → SameName env b c → SameName env a c :=
  ⟨fun _ => rfl, fun _ _ h => Eq.symm h, fun _ _ _ h k => Eq.trans h k⟩

theorem plainValue_ascii {L : Bytes → Bytes} (hL : LowerCase L) {v : Bytes} (h : ∀ c ∈ v, c.toNat < 128) :
    plainValue L v = (squeeze ((escaped v).dropWhile (fun c => c = 32))).map lowerAscii := by
  unfold plainValue
  apply hL.map
  intro c hc
  have h2 := mem_dropWhile (mem_squeeze hc)
  unfold escaped at h2
  rcases List.mem_append.1 h2 with h3 | h3
  · split at h3
    · rw [List.mem_singleton] at h3; rw [h3]; decide
    · cases h3
  · obtain ⟨x, hx, rfl⟩ := List.mem_map.1 h3
    split
    · decide
    · exact h x hx

/-- C64 (what is not told apart): names that differ in letter case, in spaces, in the special characters `"\,+<>;`, or in an
    attribute of another type (here an e-mail address) count as the same; names that differ in any other character do not. -/
theorem C64_not_told_apart (env : Env1) (hL : LowerCase env.toLower) (email : Bytes) :
    SameName env (fillName [[([2,5,4,3], some (b!"Big  Corp "))]]) (fillName [[([2,5,4,3], some (b!" big corp"))]]) ∧
    SameName env (fillName [[([2,5,4,3], some (b!"a,b"))]]) (fillName [[([2,5,4,3], some (b!"a;b"))]]) ∧
    SameName env (fillName [[([2,5,4,3], some (b!"a"))], [([1,2,840,113549,1,9,1], some email)]]) (fillName [[([2,5,4,3], some (b!"a"))]]) ∧
    ¬ SameName env (fillName [[([2,5,4,3], some (b!"a.b"))]]) (fillName [[([2,5,4,3], some (b!"a-b"))]]) := by
  have none : ∀ (v w : Bytes), (∀ c ∈ v, c.toNat < 128) → (∀ c ∈ w, c.toNat < 128) → v ≠ [] → w ≠ [] →
      (SameName env (fillName [[([2,5,4,3], some v)]]) (fillName [[([2,5,4,3], some w)]]) ↔
        (squeeze ((escaped v).dropWhile (fun c => c = 32))).map lowerAscii = (squeeze ((escaped w).dropWhile (fun c => c = 32))).map lowerAscii) := by
    intro v w hv hw hv0 hw0
    rw [C64_parsed_names_iff env hL]
    simp [valuesOf, lastValue, SameValues, SameValue, hv0, hw0, plainValue_ascii hL hv, plainValue_ascii hL hw]
  refine ⟨(none _ _ (by decide) (by decide) (by decide) (by decide)).2 (by decide), (none _ _ (by decide) (by decide) (by decide) (by decide)).2 (by decide), ?_, ?_⟩
  · rw [C64_parsed_names_iff env hL]
    simp [valuesOf, lastValue, SameValues, SameValue]
  · rw [none _ _ (by decide) (by decide) (by decide) (by decide)]
    decide

/-- C64: attributes of one relative name are ordered by their types, arc by arc, the shorter one first if one begins with the other. -/
theorem C64_type_order (a b : List Nat) (ha : a ≠ []) : lessOid a b = true ↔ a < b := by
  have cmp : ∀ (x y : Nat) (P : Bool) (Q : Prop), (P = true ↔ Q) →
      ((if x < y then true else if y < x then false else P) = true ↔ x < y ∨ x = y ∧ Q) := by
    intro x y P Q h
    by_cases h1 : x < y
    · simp [h1]
    · by_cases h2 : y < x
      · simp [h1, h2]; omega
      · have : x = y := by omega
        simp [h, this]
  have main : ∀ (as bs : List Nat) (x : Nat), lessOid (x :: as) bs = true ↔ x :: as < bs := by
    intro as
    induction as with
    | nil =>
      intro bs x
      match bs with
      | [] => simp [lessOid]
      | [y] => rw [List.cons_lt_cons_iff]; exact cmp x y false _ (by simp)
      | y :: w :: ws => rw [List.cons_lt_cons_iff]; exact cmp x y true _ (by simp)
    | cons z zs ih =>
      intro bs x
      match bs with
      | [] => simp [lessOid]
      | [y] => rw [List.cons_lt_cons_iff]; exact cmp x y false _ (by simp)
      | y :: w :: ws => rw [List.cons_lt_cons_iff]; exact cmp x y (lessOid (z :: zs) (w :: ws)) _ (ih (w :: ws) z)
  cases a with
  | nil => exact absurd rfl ha
  | cons x as => exact main as b x

/-- A concrete environment meets the hypothesis. -/
example : LowerCase (Toy.env1 []).toLower := lower_lowerCase

end Apk
