import Verif.Spec.Bytes
namespace Apk

@[simp] theorem leBytes_length (n v : Nat) : (leBytes n v).length = n := by
  induction n generalizing v with
  | zero => rfl
  | succ n ih => simp [leBytes, ih]

theorem leNat_lt (b : Bytes) : leNat b < 256 ^ b.length := by
  induction b with
  | nil => simp [leNat]
  | cons x xs ih =>
    simp only [leNat, List.length_cons, Nat.pow_succ]
    have := x.toNat_lt
    omega

theorem leNat_leBytes (n v : Nat) : leNat (leBytes n v) = v % 256 ^ n := by
  induction n generalizing v with
  | zero => simp [leBytes, leNat, Nat.mod_one]
  | succ n ih =>
    simp only [leBytes, leNat, ih, Nat.pow_succ]
    have : (UInt8.ofNat (v % 256)).toNat = v % 256 := by
      simp
    rw [this, Nat.mul_comm (256 ^ n) 256, Nat.mod_mul]

theorem leBytes_leNat (b : Bytes) : leBytes b.length (leNat b) = b := by
  induction b with
  | nil => rfl
  | cons x xs ih =>
    simp only [List.length_cons, leBytes, leNat]
    have hx := x.toNat_lt
    have h1 : (x.toNat + 256 * leNat xs) % 256 = x.toNat := by omega
    have h2 : (x.toNat + 256 * leNat xs) / 256 = leNat xs := by omega
    rw [h1, h2, ih]
    simp

theorem leBytes_inj {n v w : Nat} (h : leBytes n v = leBytes n w) (hv : v < 256 ^ n) (hw : w < 256 ^ n) : v = w := by
  have := congrArg leNat h
  rw [leNat_leBytes, leNat_leBytes, Nat.mod_eq_of_lt hv, Nat.mod_eq_of_lt hw] at this
  exact this

theorem leNat_inj {a b : Bytes} (hl : a.length = b.length) (h : leNat a = leNat b) : a = b := by
  rw [← leBytes_leNat a, ← leBytes_leNat b, hl, h]

theorem leBytes_mod (n v : Nat) : leBytes n (v % 256 ^ n) = leBytes n v := by
  apply leNat_inj (by simp)
  rw [leNat_leBytes, leNat_leBytes, Nat.mod_mod]

theorem toI32_of_lt {n : Nat} (h : n < 2 ^ 31) : toI32 n = n := by
  unfold toI32; simp only; split <;> omega

theorem toI32_nonneg {n : Nat} (hn : n < 2 ^ 32) : 0 ≤ toI32 n ↔ n < 2 ^ 31 := by
  unfold toI32; simp only; split <;> omega

theorem toI32_range (n : Nat) : -2147483648 ≤ toI32 n ∧ toI32 n ≤ 2147483647 := by
  unfold toI32; simp only; split <;> omega

theorem toI32_inj {n m : Nat} (hn : n < 2 ^ 32) (hm : m < 2 ^ 32) (h : toI32 n = toI32 m) : n = m := by
  unfold toI32 at h; simp only at h; split at h <;> split at h <;> omega

theorem wrap32_of_range {i : Int} (h1 : -2147483648 ≤ i) (h2 : i ≤ 2147483647) : wrap32 i = i := by
  unfold wrap32 toI32; simp only; split <;> omega

theorem wrap32_range (i : Int) : -2147483648 ≤ wrap32 i ∧ wrap32 i ≤ 2147483647 := toI32_range _

theorem toI64_of_lt {n : Nat} (h : n < 2 ^ 63) : toI64 n = n := by
  unfold toI64; simp only; split <;> omega

theorem take_append_len {α : Type} {a b : List α} {n : Nat} (h : a.length = n) : (a ++ b).take n = a := by
  subst h; simp
theorem drop_append_len {α : Type} {a b : List α} {n : Nat} (h : a.length = n) : (a ++ b).drop n = b := by
  subst h; simp

/-! ## Length-prefixed fields -/

@[simp] theorem lp_length (x : Bytes) : (lp x).length = 4 + x.length := by simp [lp]

theorem rdLP_lp (x rest : Bytes) (h : Small x) : rdLP (lp x ++ rest) = .ok (x, rest) := by
  unfold Small at h
  unfold rdLP
  rw [if_neg (by simp; omega)]
  have h1 : (lp x ++ rest).take 4 = leBytes 4 x.length := by
    rw [lp, List.append_assoc]; exact take_append_len (by simp)
  have h2 : (lp x ++ rest).drop 4 = x ++ rest := by
    rw [lp, List.append_assoc]; exact drop_append_len (by simp)
  have h3 : toI32 (leNat (leBytes 4 x.length)) = x.length := by
    rw [leNat_leBytes, Nat.mod_eq_of_lt (by omega), toI32_of_lt (by omega)]
  simp only [h1, h2, h3]
  rw [if_neg (by omega), if_neg (by simp; omega)]
  simp

theorem rdLP_ok {b x rest : Bytes} (h : rdLP b = .ok (x, rest)) : Small x ∧ b = lp x ++ rest := by
  unfold rdLP at h
  split at h
  · cases h
  · rename_i hlen
    simp only at h
    split at h
    · cases h
    · rename_i hneg
      split at h
      · cases h
      · rename_i hlong
        simp only [Except.ok.injEq, Prod.mk.injEq] at h
        obtain ⟨rfl, rfl⟩ := h
        have hlt : leNat (b.take 4) < 2 ^ 32 := by
          have := leNat_lt (b.take 4)
          rw [List.length_take, Nat.min_eq_left (by omega)] at this
          exact this
        have hl : leNat (b.take 4) < 2 ^ 31 := (toI32_nonneg hlt).1 (by omega)
        rw [toI32_of_lt hl] at hlong ⊢
        have e1 : ((leNat (b.take 4) : Int)).toNat = leNat (b.take 4) := by omega
        have hlen2 : ((b.drop 4).take (leNat (b.take 4))).length = leNat (b.take 4) := by
          rw [List.length_take]; omega
        rw [e1]
        refine ⟨by unfold Small; omega, ?_⟩
        unfold lp
        rw [hlen2]
        have h4 : (b.take 4).length = 4 := by rw [List.length_take]; omega
        have := leBytes_leNat (b.take 4)
        rw [h4] at this
        rw [this, List.append_assoc, List.take_append_drop, List.take_append_drop]

theorem rdLP_ok_iff {b x rest : Bytes} : rdLP b = .ok (x, rest) ↔ Small x ∧ b = lp x ++ rest :=
  ⟨rdLP_ok, fun ⟨h, e⟩ => e ▸ rdLP_lp x rest h⟩

theorem rdU32_some {b rest : Bytes} {v : Nat} : rdU32 b = some (v, rest) ↔ v < 2 ^ 32 ∧ b = leBytes 4 v ++ rest := by
  unfold rdU32
  constructor
  · intro h
    split at h
    · cases h
    · simp only [Option.some.injEq, Prod.mk.injEq] at h
      obtain ⟨rfl, rfl⟩ := h
      have h4 : (b.take 4).length = 4 := by rw [List.length_take]; omega
      have := leNat_lt (b.take 4)
      rw [h4] at this
      refine ⟨this, ?_⟩
      have h5 := leBytes_leNat (b.take 4)
      rw [h4] at h5
      rw [h5, List.take_append_drop]
  · rintro ⟨hv, rfl⟩
    rw [if_neg (by simp)]
    rw [take_append_len (by simp), drop_append_len (by simp), leNat_leBytes, Nat.mod_eq_of_lt hv]

theorem rdU32_none {b : Bytes} : rdU32 b = none ↔ b.length < 4 := by
  unfold rdU32; split <;> simp_all

theorem rdU64_some {b rest : Bytes} {v : Nat} : rdU64 b = some (v, rest) ↔ v < 2 ^ 64 ∧ b = leBytes 8 v ++ rest := by
  unfold rdU64
  constructor
  · intro h
    split at h
    · cases h
    · simp only [Option.some.injEq, Prod.mk.injEq] at h
      obtain ⟨rfl, rfl⟩ := h
      have h4 : (b.take 8).length = 8 := by rw [List.length_take]; omega
      have := leNat_lt (b.take 8)
      rw [h4] at this
      refine ⟨this, ?_⟩
      have h5 := leBytes_leNat (b.take 8)
      rw [h4] at h5
      rw [h5, List.take_append_drop]
  · rintro ⟨hv, rfl⟩
    rw [if_neg (by simp)]
    rw [take_append_len (by simp), drop_append_len (by simp), leNat_leBytes, Nat.mod_eq_of_lt hv]

/-! ## Sequences -/

@[simp] theorem lpSeq_nil : lpSeq [] = [] := rfl
@[simp] theorem lpSeq_cons (x : Bytes) (xs : List Bytes) : lpSeq (x :: xs) = lp x ++ lpSeq xs := rfl
theorem lpSeq_append (xs ys : List Bytes) : lpSeq (xs ++ ys) = lpSeq xs ++ lpSeq ys := by simp [lpSeq]

theorem lpSplitAux_spec (fuel : Nat) (b : Bytes) (hf : b.length < fuel) :
    ∃ tail, b = lpSeq (lpSplitAux fuel b).1 ++ tail ∧ (∀ x ∈ (lpSplitAux fuel b).1, Small x) ∧
      (match (lpSplitAux fuel b).2 with
        | none => tail = []
        | some e => tail ≠ [] ∧ rdLP tail = .error e) := by
  induction fuel generalizing b with
  | zero => omega
  | succ fuel ih =>
    unfold lpSplitAux
    split
    · rename_i h; exact ⟨[], by simp [h]⟩
    · rename_i hne
      cases hr : rdLP b with
      | error e => exact ⟨b, by simp [hne, hr]⟩
      | ok p =>
        obtain ⟨x, rest⟩ := p
        obtain ⟨hs, he⟩ := rdLP_ok hr
        have hlen : rest.length < fuel := by
          have := congrArg List.length he
          simp at this; omega
        obtain ⟨tail, h1, h2, h3⟩ := ih rest hlen
        refine ⟨tail, ?_, ?_, ?_⟩
        · simp only [lpSeq_cons, List.append_assoc, ← h1]; exact he
        · simp only [List.mem_cons, forall_eq_or_imp]; exact ⟨hs, h2⟩
        · exact h3

theorem lpSplit_spec (b : Bytes) :
    ∃ tail, b = lpSeq (lpSplit b).1 ++ tail ∧ (∀ x ∈ (lpSplit b).1, Small x) ∧
      (match (lpSplit b).2 with
        | none => tail = []
        | some e => tail ≠ [] ∧ rdLP tail = .error e) :=
  lpSplitAux_spec _ b (Nat.lt_succ_self _)

theorem lpSplitAux_seq (xs : List Bytes) (h : ∀ x ∈ xs, Small x) (tail : Bytes) (fuel : Nat)
    (hf : (lpSeq xs ++ tail).length < fuel) (r : Option LPErr)
    (ht : r = if tail = [] then none else match rdLP tail with | .error e => some e | .ok _ => r)
    (hok : ∀ p, rdLP tail ≠ .ok p) :
    lpSplitAux fuel (lpSeq xs ++ tail) = (xs, r) := by
  induction xs generalizing fuel with
  | nil =>
    obtain ⟨f, rfl⟩ : ∃ f, fuel = f + 1 := ⟨fuel - 1, by omega⟩
    show lpSplitAux (f + 1) tail = _
    unfold lpSplitAux
    by_cases htl : tail = []
    · rw [if_pos htl]; rw [ht, if_pos htl]
    · rw [if_neg htl]
      cases hr : rdLP tail with
      | ok p => exact absurd hr (hok p)
      | error e => simp only; rw [ht, if_neg htl, hr]
  | cons x xs ih =>
    obtain ⟨f, rfl⟩ : ∃ f, fuel = f + 1 := ⟨fuel - 1, by omega⟩
    simp only [List.mem_cons, forall_eq_or_imp] at h
    rw [lpSeq_cons, List.append_assoc]
    unfold lpSplitAux
    rw [if_neg (by intro h0; have := congrArg List.length h0; simp at this)]
    rw [rdLP_lp _ _ h.1]
    simp only
    rw [ih h.2 f (by simp at hf ⊢; omega)]

/-- A whole buffer is a sequence of fields exactly when the split loop meets no framing error. -/
theorem lpSplit_ok_iff (b : Bytes) (xs : List Bytes) :
    lpSplit b = (xs, none) ↔ (∀ x ∈ xs, Small x) ∧ b = lpSeq xs := by
  constructor
  · intro h
    obtain ⟨tail, h1, h2, h3⟩ := lpSplit_spec b
    rw [h] at h1 h2 h3
    simp only at h1 h2 h3
    exact ⟨h2, by rw [h1, h3]; simp⟩
  · rintro ⟨h, rfl⟩
    have := lpSplitAux_seq xs h [] ((lpSeq xs).length + 1) (by simp) none (by simp) (by intro p hp; cases hp)
    simpa [lpSplit] using this

theorem lpSeq_inj {xs ys : List Bytes} (hx : ∀ x ∈ xs, Small x) (hy : ∀ x ∈ ys, Small x)
    (h : lpSeq xs = lpSeq ys) : xs = ys := by
  have h1 := (lpSplit_ok_iff _ xs).2 ⟨hx, rfl⟩
  have h2 := (lpSplit_ok_iff _ ys).2 ⟨hy, h⟩
  rw [h1] at h2
  exact (Prod.mk.inj h2).1

/-! ## Maps -/

section maps
variable {κ ν : Type} [DecidableEq κ]

@[simp] theorem mget_nil (k : κ) : mget ([] : List (κ × ν)) k = none := rfl

theorem mget_cons (p : κ × ν) (m : List (κ × ν)) (k : κ) :
    mget (p :: m) k = if p.1 = k then some p.2 else mget m k := by
  unfold mget
  by_cases h : p.1 = k <;> simp [h]

theorem mget_mset (m : List (κ × ν)) (k k' : κ) (v : ν) :
    mget (mset m k v) k' = if k = k' then some v else mget m k' := by
  induction m with
  | nil => simp [mset, mget_cons]
  | cons p ps ih =>
    unfold mset
    by_cases h : p.1 = k
    · rw [if_pos h]
      simp only [mget_cons]
      by_cases h2 : k = k'
      · simp [h2]
      · simp [h2, h]
    · rw [if_neg h]
      simp only [mget_cons, ih]
      by_cases h2 : k = k'
      · subst h2; simp [h]
      · simp [h2]

theorem mget_mset_self (m : List (κ × ν)) (k : κ) (v : ν) : mget (mset m k v) k = some v := by
  simp [mget_mset]

theorem mget_mdel (m : List (κ × ν)) (k k' : κ) : mget (mdel m k) k' = if k = k' then none else mget m k' := by
  induction m with
  | nil => simp [mdel]
  | cons p ps ih =>
    unfold mdel at *
    by_cases h : p.1 = k
    · simp only [List.filter_cons, h, ne_eq, not_true_eq_false, decide_false, Bool.false_eq_true, if_false, mget_cons]
      rw [ih]
      by_cases h2 : k = k' <;> simp [h2]
    · simp only [List.filter_cons, h, ne_eq, not_false_eq_true, decide_true, if_true, mget_cons]
      rw [ih]
      by_cases h2 : k = k'
      · subst h2; simp [h]
      · simp [h2]

theorem mget_mem {m : List (κ × ν)} {k : κ} {v : ν} (h : mget m k = some v) : (k, v) ∈ m := by
  induction m with
  | nil => simp at h
  | cons p ps ih =>
    rw [mget_cons] at h
    by_cases hk : p.1 = k
    · rw [if_pos hk] at h
      cases h; subst hk; simp
    · rw [if_neg hk] at h
      exact List.mem_cons_of_mem _ (ih h)

theorem mget_none {m : List (κ × ν)} {k : κ} : mget m k = none ↔ ∀ p ∈ m, p.1 ≠ k := by
  induction m with
  | nil => simp
  | cons p ps ih =>
    rw [mget_cons]
    by_cases hk : p.1 = k <;> simp [hk, ih]

/-- Keys of a map are unique. -/
def KeysNodup (m : List (κ × ν)) : Prop := (m.map (·.1)).Nodup

theorem mset_keys_mem {m : List (κ × ν)} {k k' : κ} {v : ν} :
    k' ∈ (mset m k v).map (·.1) ↔ k' = k ∨ k' ∈ m.map (·.1) := by
  induction m with
  | nil => simp [mset]
  | cons p ps ih =>
    unfold mset
    by_cases h : p.1 = k
    · rw [if_pos h]; subst h; simp
    · rw [if_neg h]
      simp only [List.map_cons, List.mem_cons, ih]
      constructor
      · rintro (h1 | h1 | h1)
        · exact Or.inr (Or.inl h1)
        · exact Or.inl h1
        · exact Or.inr (Or.inr h1)
      · rintro (h1 | h1 | h1)
        · exact Or.inr (Or.inl h1)
        · exact Or.inl h1
        · exact Or.inr (Or.inr h1)

theorem mset_nodup {m : List (κ × ν)} (h : KeysNodup m) (k : κ) (v : ν) : KeysNodup (mset m k v) := by
  induction m with
  | nil => simp [mset, KeysNodup]
  | cons p ps ih =>
    unfold KeysNodup at *
    simp only [List.map_cons, List.nodup_cons] at h
    unfold mset
    by_cases hk : p.1 = k
    · rw [if_pos hk]; subst hk; simpa using h
    · rw [if_neg hk]
      simp only [List.map_cons, List.nodup_cons]
      refine ⟨?_, ih h.2⟩
      rw [mset_keys_mem]
      rintro (h1 | h1)
      · exact hk h1
      · exact h.1 h1

theorem mget_of_mem {m : List (κ × ν)} (h : KeysNodup m) {k : κ} {v : ν} (hm : (k, v) ∈ m) : mget m k = some v := by
  induction m with
  | nil => simp at hm
  | cons p ps ih =>
    unfold KeysNodup at *
    simp only [List.map_cons, List.nodup_cons] at h
    rw [mget_cons]
    rcases List.mem_cons.1 hm with h1 | h1
    · subst h1; simp
    · have : p.1 ≠ k := by
        rintro rfl
        exact h.1 (List.mem_map.2 ⟨_, h1, rfl⟩)
      rw [if_neg this]
      exact ih h.2 h1

theorem mset_ne_nil (m : List (κ × ν)) (k : κ) (v : ν) : mset m k v ≠ [] := by
  cases m with
  | nil => simp [mset]
  | cons p ps => unfold mset; split <;> simp

end maps

end Apk
