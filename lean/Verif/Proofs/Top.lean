import Verif.Spec.Top
/-! # Proofs about the package API -/
namespace Apk

/-! ## Numerals -/

theorem digitsVal_iff (ds : Bytes) (n : Nat) :
    digitsVal ds = some n ↔ ds ≠ [] ∧ (∀ c ∈ ds, 48 ≤ c.toNat ∧ c.toNat ≤ 57) ∧ n = decimalValue ds := by
  cases ds with
  | nil => simp [digitsVal]
  | cons c cs =>
    unfold digitsVal decimalValue
    simp only [List.all_eq_true, decide_eq_true_eq]
    constructor
    · intro h
      split at h
      · rename_i ha
        exact ⟨by simp, ha, (Option.some.inj h).symm⟩
      · cases h
    · rintro ⟨_, h1, h2⟩
      rw [if_pos h1, h2]

theorem digit_no_sign {c : UInt8} {cs : Bytes} (h : ∀ x ∈ c :: cs, 48 ≤ x.toNat ∧ x.toNat ≤ 57) : c ≠ 45 ∧ c ≠ 43 := by
  have := h c List.mem_cons_self
  constructor
  · rintro rfl; revert this; decide
  · rintro rfl; revert this; decide

theorem goParseInt32_iff (v : Bytes) (i : Int) : goParseInt32 v = some i ↔ Numeral v i := by
  cases v with
  | nil =>
    constructor
    · intro h; cases h
    · rintro ⟨sign, ds, h, h1, _⟩
      exact absurd (List.append_eq_nil_iff.1 h.symm).2 h1
  | cons c ds =>
    unfold goParseInt32
    simp only
    constructor
    · intro h
      split at h
      · rename_i hc
        subst hc
        cases hv : digitsVal ds with
        | none => rw [hv] at h; cases h
        | some n =>
          rw [hv, Option.bind_some] at h
          obtain ⟨h1, h2, h3⟩ := (digitsVal_iff _ _).1 hv
          split at h
          · rename_i hn
            simp only [Option.some.injEq] at h
            subst h
            exact ⟨[45], ds, rfl, h1, h2, .inr ⟨rfl, by rw [h3]⟩, by omega, by omega⟩
          · cases h
      · cases hv : digitsVal (if c = 43 then ds else c :: ds) with
        | none => rw [hv] at h; cases h
        | some n =>
          rw [hv, Option.bind_some] at h
          obtain ⟨h1, h2, h3⟩ := (digitsVal_iff _ _).1 hv
          split at h
          · rename_i hn
            simp only [Option.some.injEq] at h
            subst h
            by_cases hc : c = 43
            · rw [if_pos hc] at h1 h2 h3
              exact ⟨[43], ds, by rw [hc]; rfl, h1, h2, .inl ⟨.inr rfl, by rw [h3]⟩, by omega, by omega⟩
            · rw [if_neg hc] at h1 h2 h3
              exact ⟨[], c :: ds, rfl, h1, h2, .inl ⟨.inl rfl, by rw [h3]⟩, by omega, by omega⟩
          · cases h
    · rintro ⟨sign, es, h, h1, h2, h3, h4, h5⟩
      rcases h3 with ⟨rfl | rfl, h3⟩ | ⟨rfl, h3⟩
      · rw [List.nil_append] at h
        subst h
        obtain ⟨n1, n2⟩ := digit_no_sign h2
        rw [if_neg n1, if_neg n2, (digitsVal_iff _ _).2 ⟨h1, h2, rfl⟩, Option.bind_some, if_pos (by omega), h3]
      · rw [List.singleton_append] at h
        cases h
        rw [if_neg (by decide), if_pos rfl, (digitsVal_iff _ _).2 ⟨h1, h2, rfl⟩, Option.bind_some, if_pos (by omega), h3]
      · rw [List.singleton_append] at h
        cases h
        rw [if_pos rfl, (digitsVal_iff _ _).2 ⟨h1, h2, rfl⟩, Option.bind_some, if_pos (by omega), h3]

/-! ## The manifest -/

theorem attrInt_iff (attrs : List (Bytes × Bytes)) (name : Bytes) (o : Option Int) : attrInt attrs name = .ok o ↔ AttrNum attrs name o := by
  induction attrs with
  | nil =>
    unfold attrInt AttrNum
    constructor
    · intro h; cases h; exact .inl ⟨rfl, by simp⟩
    · rintro (⟨rfl, _⟩ | ⟨pre, v, post, i, h, _⟩)
      · rfl
      · exact absurd h (by simp)
  | cons p as ih =>
    obtain ⟨n, v⟩ := p
    unfold attrInt
    by_cases hn : n = name
    · rw [if_pos hn]
      subst hn
      constructor
      · intro h
        split at h
        · cases h
        · rename_i i hi
          cases h
          exact .inr ⟨[], v, as, i, rfl, by simp, (goParseInt32_iff _ _).1 hi, rfl⟩
      · rintro (⟨_, h⟩ | ⟨pre, w, post, i, h, h1, h2, rfl⟩)
        · exact absurd rfl (h (n, v) List.mem_cons_self)
        · cases pre with
          | nil =>
            simp only [List.nil_append, List.cons.injEq, Prod.mk.injEq, true_and] at h
            obtain ⟨rfl, _⟩ := h
            rw [(goParseInt32_iff _ _).2 h2]
          | cons q qs =>
            simp only [List.cons_append, List.cons.injEq] at h
            exact absurd (congrArg Prod.fst h.1.symm) (h1 q List.mem_cons_self)
    · rw [if_neg hn, ih]
      unfold AttrNum
      constructor
      · rintro (⟨h1, h2⟩ | ⟨pre, w, post, i, h, h1, h2, h3⟩)
        · refine .inl ⟨h1, fun p hp => ?_⟩
          rcases List.mem_cons.1 hp with rfl | hp
          · exact hn
          · exact h2 p hp
        · refine .inr ⟨(n, v) :: pre, w, post, i, by rw [h]; rfl, fun p hp => ?_, h2, h3⟩
          rcases List.mem_cons.1 hp with rfl | hp
          · exact hn
          · exact h1 p hp
      · rintro (⟨h1, h2⟩ | ⟨pre, w, post, i, h, h1, h2, h3⟩)
        · exact .inl ⟨h1, fun p hp => h2 p (List.mem_cons_of_mem _ hp)⟩
        · cases pre with
          | nil =>
            simp only [List.nil_append, List.cons.injEq, Prod.mk.injEq] at h
            exact absurd h.1.1 hn
          | cons q qs =>
            simp only [List.cons_append, List.cons.injEq] at h
            exact .inr ⟨qs, w, post, i, h.2, fun p hp => h1 p (List.mem_cons_of_mem _ hp), h2, h3⟩

theorem encodeAll_prefix {fails : Bool} {ts : List XTok} {s : Int} (h : SandboxOf ts s) (hu : ∀ t ∈ ts, ¬ IsUsesSdk t) (rest : List XTok)
    (mn tg : Int) : encodeAll fails (ts ++ rest) ⟨mn, tg, 1⟩ = encodeAll fails rest ⟨mn, tg, s⟩ := by
  induction h generalizing rest with
  | nil => rfl
  | @other ts s t _ ht ih =>
    rw [List.append_assoc, ih (fun x hx => hu x (List.mem_append_left _ hx))]
    have hnu := hu t (List.mem_append_right _ (List.mem_singleton.2 rfl))
    rw [List.singleton_append]
    simp only [encodeAll]
    cases t with
    | other => rfl
    | start name as =>
      unfold encodeToken
      simp only
      rw [if_neg (fun e => ht as (by rw [e])), if_neg (fun e => hnu ⟨as, by rw [e]⟩)]
  | @absent ts s as _ ha ih =>
    rw [List.append_assoc, ih (fun x hx => hu x (List.mem_append_left _ hx)), List.singleton_append]
    simp only [encodeAll, encodeToken, if_true]
    rw [(attrInt_iff _ _ _).2 ha]
    rfl
  | @declared ts s as v _ ha ih =>
    rw [List.append_assoc, ih (fun x hx => hu x (List.mem_append_left _ hx)), List.singleton_append]
    simp only [encodeAll, encodeToken, if_true]
    rw [(attrInt_iff _ _ _).2 ha]
    rfl

theorem encodeAll_sound {fails : Bool} {ts pre : List XTok} {s : Int} (hs : SandboxOf pre s) (hu : ∀ t ∈ pre, ¬ IsUsesSdk t) {i : SdkInfo}
    (h : encodeAll fails ts ⟨1, 0, s⟩ = .ok i) : DocSays ⟨pre ++ ts, fails⟩ i := by
  induction ts generalizing pre s with
  | nil =>
    unfold encodeAll at h
    split at h
    · cases h
    · rename_i hf
      cases h
      rw [List.append_nil]
      exact .no_uses hu hs (by simpa using hf)
  | cons t ts ih =>
    have snoc : ∀ {x : XTok}, pre ++ x :: ts = (pre ++ [x]) ++ ts := by intro x; simp
    have husnoc : ∀ {x : XTok}, ¬ IsUsesSdk x → ∀ y ∈ pre ++ [x], ¬ IsUsesSdk y := by
      intro x hx y hy
      rcases List.mem_append.1 hy with hy | hy
      · exact hu y hy
      · rw [List.mem_singleton.1 hy]; exact hx
    simp only [encodeAll] at h
    cases t with
    | other =>
      simp only [encodeToken] at h
      rw [snoc]
      exact ih (.other hs (by intro as ha; cases ha)) (husnoc (by rintro ⟨as, ha⟩; cases ha)) h
    | start name as =>
      simp only [encodeToken] at h
      by_cases h1 : name = b!"manifest"
      · rw [if_pos h1] at h
        subst h1
        have hx : ¬ IsUsesSdk (.start (b!"manifest") as) := by
          rintro ⟨as', ha⟩
          simp only [XTok.start.injEq] at ha
          exact absurd ha.1 (by decide)
        cases hv : attrInt as (b!"targetSandboxVersion") with
        | error x => rw [hv] at h; cases h
        | ok v =>
          rw [hv] at h
          have ha := (attrInt_iff _ _ _).1 hv
          rw [snoc]
          cases v with
          | none => exact ih (.absent hs ha) (husnoc hx) h
          | some v => exact ih (.declared hs ha) (husnoc hx) h
      · rw [if_neg h1] at h
        by_cases h2 : name = b!"uses-sdk"
        · rw [if_pos h2] at h
          subst h2
          cases hv : attrInt as (b!"minSdkVersion") with
          | error x => rw [hv] at h; cases h
          | ok v =>
            cases hw : attrInt as (b!"targetSdkVersion") with
            | error x => rw [hv, hw] at h; cases h
            | ok w =>
              rw [hv, hw] at h
              cases h
              exact .uses rfl hu hs ((attrInt_iff _ _ _).1 hv) ((attrInt_iff _ _ _).1 hw)
        · rw [if_neg h2] at h
          rw [snoc]
          refine ih (.other hs ?_) (husnoc ?_) h
          · intro as' ha
            simp only [XTok.start.injEq] at ha
            exact h1 ha.1
          · rintro ⟨as', ha⟩
            simp only [XTok.start.injEq] at ha
            exact h2 ha.1

theorem encodeAll_iff (d : XDoc) (i : SdkInfo) : encodeAll d.fails d.toks ⟨1, 0, 1⟩ = .ok i ↔ DocSays d i := by
  constructor
  · intro h
    exact encodeAll_sound (pre := []) .nil (by simp) h
  · intro h
    cases h with
    | @uses pre post as s mn tg e hu hs h1 h2 =>
      rw [e, encodeAll_prefix hs hu]
      simp only [encodeAll, encodeToken]
      rw [if_neg (by decide)]
      simp only [if_true]
      rw [(attrInt_iff _ _ _).2 h1, (attrInt_iff _ _ _).2 h2]
    | @no_uses s hu hs hf =>
      have := encodeAll_prefix (fails := d.fails) hs hu [] 1 0
      rw [List.append_nil] at this
      rw [this]
      simp [encodeAll, hf]

theorem getManifestInfo_iff (env : EnvT) (z : Zip1) (i : SdkInfo) : getManifestInfo env z = .ok i ↔ ManifestSays env z i := by
  unfold getManifestInfo
  constructor
  · intro h
    split at h
    · rename_i hf; cases h; exact .no_file hf
    · rename_i f hf
      split at h
      · cases h
      · rename_i ho
        have ho' : f.openOk = true := by simpa using ho
        split at h
        · rename_i ha; cases h; exact .no_copy hf ho' ha
        · rename_i a as ha
          exact .says hf ho' (by rw [ha]; simp) ((encodeAll_iff _ _).1 h)
  · intro h
    cases h with
    | no_file hf => rw [hf]
    | no_copy hf ho ha => rw [hf]; simp [ho, ha]
    | says hf ho ha hd =>
      rw [hf]
      simp only [ho]
      rename_i f
      cases hx : f.attempts with
      | nil => exact absurd hx ha
      | cons a as => exact (encodeAll_iff _ _).2 hd

theorem ManifestSays.unique {env : EnvT} {z : Zip1} {i j : SdkInfo} (h1 : ManifestSays env z i) (h2 : ManifestSays env z j) : i = j := by
  rw [← getManifestInfo_iff] at h1 h2
  rw [h1] at h2
  cases h2
  rfl

theorem manifestBad_iff (env : EnvT) (z : Zip1) : ManifestBad env z ↔ ∃ e, getManifestInfo env z = .error e := by
  unfold ManifestBad
  cases h : getManifestInfo env z with
  | error e =>
    refine ⟨fun _ => ⟨e, rfl⟩, fun _ i hi => ?_⟩
    rw [← getManifestInfo_iff, h] at hi
    cases hi
  | ok i =>
    refine ⟨fun hn => absurd ((getManifestInfo_iff ..).1 h) (hn i), ?_⟩
    rintro ⟨e, he⟩
    cases he

/-- The facts used by the verifier. -/
theorem sdkFacts_spec (env : EnvT) (z : Zip1) (minSdk maxSdk : Int) :
    EffectiveMin env z minSdk (sdkFacts env z minSdk maxSdk).1.min ∧
    (∀ i, Consulted minSdk maxSdk → ManifestSays env z i →
      (sdkFacts env z minSdk maxSdk).1.target = i.target ∧ (sdkFacts env z minSdk maxSdk).1.sandbox = i.sandbox) ∧
    ((sdkFacts env z minSdk maxSdk).2 ≠ none ↔ Consulted minSdk maxSdk ∧ ManifestBad env z) ∧
    (¬ Consulted minSdk maxSdk ∨ ManifestBad env z → (sdkFacts env z minSdk maxSdk).1.target = 0 ∧ (sdkFacts env z minSdk maxSdk).1.sandbox = 0) := by
  have hc : (minSdk = vAnyMin ∨ requiresSandboxV2 maxSdk = true) ↔ Consulted minSdk maxSdk := by
    unfold Consulted requiresSandboxV2 vAnyMin
    rw [decide_eq_true_eq]
  unfold sdkFacts
  by_cases h : minSdk = vAnyMin ∨ requiresSandboxV2 maxSdk = true
  · rw [if_pos h]
    cases hm : getManifestInfo env z with
    | error e =>
      have hb := (manifestBad_iff env z).2 ⟨e, hm⟩
      refine ⟨?_, ?_, ?_, fun _ => ⟨rfl, rfl⟩⟩
      · by_cases h1 : minSdk = -1
        · exact .inr (.inr ⟨h1, hb, h1⟩)
        · exact .inl ⟨h1, rfl⟩
      · intro i _ hi
        exact absurd hi (hb i)
      · simp [hc.1 h, hb]
    | ok i =>
      have hi := (getManifestInfo_iff ..).1 hm
      refine ⟨?_, ?_, ?_, ?_⟩
      · by_cases h1 : minSdk = -1
        · exact .inr (.inl ⟨h1, i, hi, by simp [vAnyMin, h1]⟩)
        · exact .inl ⟨h1, by simp [vAnyMin, h1]⟩
      · intro j _ hj
        cases hi.unique hj
        exact ⟨rfl, rfl⟩
      · constructor
        · intro hx; exact absurd rfl hx
        · rintro ⟨_, hb⟩; exact absurd hi (hb i)
      · rintro (hn | hb)
        · exact absurd (hc.1 h) hn
        · exact absurd hi (hb i)
  · rw [if_neg h]
    have hn : minSdk ≠ -1 := fun e => h (.inl e)
    refine ⟨.inl ⟨hn, rfl⟩, ?_, ?_, fun _ => ⟨rfl, rfl⟩⟩
    · intro i hx; exact absurd (hc.2 hx) h
    · constructor
      · intro hx; exact absurd rfl hx
      · rintro ⟨hx, _⟩; exact absurd (hc.2 hx) h

end Apk
