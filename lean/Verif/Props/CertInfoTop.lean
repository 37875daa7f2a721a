import Verif.Props.CertInfo
import Verif.Props.V1Auth
import Verif.Proofs.NotFound
import Verif.Proofs.Strings
import Verif.Model.Top
import Verif.Spec.Text
import Verif.Props.TopMore
/-! # C44 for the results of Verify and ExtractCerts, and the description of the picked certificate -/
namespace Apk

theorem blockPart_nonempty {env : Env} {zip : Zip} {file : Bytes} {minSdk maxSdk : Int} {out : Outcome}
    (h : verifySigningBlock env zip file minSdk maxSdk = .ok out) : ∀ ch ∈ (blockPart out).certs, ch ≠ [] := by
  unfold blockPart
  split
  · intro ch hch; cases hch
  · rename_i r hr
    split
    · intro ch hch; cases hch
    · exact reported_chains_nonempty h hr

theorem verifyTop_nonempty {env : EnvT} {ord : Ord1} {z : Option Zip1} {file : Bytes} {minSdk maxSdk : Int} {res : TopRes} {e : Option TopE}
    (h : verifyTop env ord z file minSdk maxSdk = .ok (res, e)) : ∀ ch ∈ res.certs, ch ≠ [] := by
  unfold verifyTop at h
  split at h
  · cases h; intro ch hch; cases hch
  rename_i z
  rcases hs : sdkFacts env z minSdk maxSdk with ⟨i, me⟩
  simp only [hs] at h
  split at h
  · cases h; intro ch hch; cases hch
  split at h
  · cases h
  rename_i out ho
  have hb := blockPart_nonempty ho
  split at h
  · cases h; exact hb
  split at h
  · cases h; exact hb
  split at h
  · cases h
  · rename_i c e1 hv
    simp only [Except.ok.injEq] at h
    have hc : (v1Part i me maxSdk out c e1).1.certs = if (blockPart out).certs.length = 0 then c else (blockPart out).certs := by
      unfold v1Part
      simp only
      split
      · rfl
      split
      · rfl
      split
      · rfl
      split <;> rfl
    have hres : res = (v1Part i me maxSdk out c e1).1 := by rw [h]
    rw [hres, hc]
    split
    · intro ch hch
      obtain ⟨p7, sm, _, hl⟩ := C46_reported_chains env.toEnv1 ord z _ _ _ c e1 hv ch hch
      cases hl.linked <;> simp
    · exact hb

theorem extractTop_nonempty {env : EnvT} {ord : Ord1} {z : Option Zip1} {file : Bytes} {c : List (List Cert)} {e : Option ExtE}
    (h : extractTop env ord z file = .ok (c, e)) : ∀ ch ∈ c, ch ≠ [] := by
  unfold extractTop at h
  split at h
  · cases h; intro ch hch; cases hch
  split at h
  · cases h
  rename_i c0 e0 hx
  have h0 := extracted_chains_nonempty hx
  split at h
  · cases h; exact h0
  split at h
  · cases h
  · rename_i c1 e1 hv
    cases h
    intro ch hch
    rcases List.mem_append.1 hch with hch | hch
    · exact h0 ch hch
    · obtain ⟨p7, sm, _, hl⟩ := C46_extracted_chains env.toEnv1 ord _ _ _ c1 e1 hv ch hch
      cases hl.linked <;> simp

/-- **C44**: the chains reported by Verify, accepted or not, can be passed to PickBestApkCert: it does not panic, and picks a certificate if
    there is a chain. -/
theorem C44_after_verify {env : EnvT} {ord : Ord1} {z : Option Zip1} {file : Bytes} {minSdk maxSdk : Int} {res : TopRes} {e : Option TopE}
    (h : verifyTop env ord z file minSdk maxSdk = .ok (res, e)) {sorter : Nat → SortProg} (hs : SortCorrect sorter) (clock : Nat → Int) :
    ∃ o l, pickBest sorter clock res.certs = .ok (o, l) ∧ (res.certs ≠ [] → ∃ c, o = some c ∧ LeafOf res.certs c) := by
  obtain ⟨o, l, hp⟩ := C44_never_panics hs clock (verifyTop_nonempty h)
  obtain ⟨_, h2, h3⟩ := C44_picks_a_leaf hp
  refine ⟨o, l, hp, fun hne => ?_⟩
  cases o with
  | none => exact absurd (h2.1 rfl) hne
  | some c => exact ⟨c, rfl, h3 c rfl⟩

/-- **C44**: the same for ExtractCerts. -/
theorem C44_after_extract {env : EnvT} {ord : Ord1} {z : Option Zip1} {file : Bytes} {c : List (List Cert)} {e : Option ExtE}
    (h : extractTop env ord z file = .ok (c, e)) {sorter : Nat → SortProg} (hs : SortCorrect sorter) (clock : Nat → Int) :
    ∃ o l, pickBest sorter clock c = .ok (o, l) ∧ (c ≠ [] → ∃ d, o = some d ∧ LeafOf c d) := by
  obtain ⟨o, l, hp⟩ := C44_never_panics hs clock (extractTop_nonempty h)
  obtain ⟨_, h2, h3⟩ := C44_picks_a_leaf hp
  refine ⟨o, l, hp, fun hne => ?_⟩
  cases o with
  | none => exact absurd (h2.1 rfl) hne
  | some c => exact ⟨c, rfl, h3 c rfl⟩

theorem hexEncode_inj : ∀ {a b : Bytes}, hexEncode a = hexEncode b → a = b := by
  intro a
  induction a with
  | nil => intro b h; cases b with
    | nil => rfl
    | cons => simp [hexEncode] at h
  | cons x a ih =>
    intro b h
    cases b with
    | nil => simp [hexEncode] at h
    | cons y b =>
      simp only [hexEncode, List.cons.injEq] at h
      have hx := UInt8.toNat_lt x
      have hy := UInt8.toNat_lt y
      have h1 := hexDigit_inj (by omega) (by omega) h.1
      have h2 := hexDigit_inj (by omega) (by omega) h.2.1
      have : x.toNat = y.toNat := by omega
      rw [UInt8.toNat_inj.1 this, ih h.2.2]

theorem hexDigit_eq {n : Nat} (h : n < 16) : hexDigit n = hexDigits.getD n 0 := by
  have : ∀ k : Fin 16, hexDigit k.val = hexDigits.getD k.val 0 := by decide
  exact this ⟨n, h⟩

theorem hexEncode_eq (b : Bytes) : hexEncode b = hexText b := by
  induction b with
  | nil => rfl
  | cons x xs ih =>
    have := x.toNat_lt
    unfold hexText at ih
    rw [hexText, List.flatMap_cons, ← ih, hexEncode, hexDigit_eq (by omega), hexDigit_eq (by omega)]
    rfl

theorem joinWith_eq (sep : Bytes) : ∀ (l : List Bytes), joinWith sep l = sep.intercalate l
  | [] => rfl
  | [s] => by simp [joinWith, List.intercalate]
  | s :: t :: l => by
    rw [joinWith, joinWith_eq sep (t :: l)]
    simp [List.intercalate, List.intersperse]

/-- One field of the text with its separator. -/
def fieldText (p : Bytes × List Bytes) : Bytes := p.1 ++ b!"=" ++ (b!";").intercalate p.2

theorem flatMap_intercalate (sep : Bytes) : ∀ (l : List Bytes), l ≠ [] → l.flatMap (· ++ sep) = sep.intercalate l ++ sep
  | [], h => absurd rfl h
  | [s], _ => by simp [List.intercalate]
  | s :: t :: l, _ => by
    rw [List.flatMap_cons, flatMap_intercalate sep (t :: l) (by simp)]
    simp [List.intercalate, List.intersperse]

theorem nameField_eq (label : Bytes) (vs : List Bytes) :
    nameField (label ++ b!"=") vs = (([(label, vs)].filter (fun p => p.2 ≠ [])).map fieldText).flatMap (· ++ b!", ") := by
  unfold nameField
  cases vs with
  | nil => rfl
  | cons v vs =>
    rw [if_pos (by simp)]
    simp [fieldText, joinWith_eq]

theorem filter_map_flatMap_append {α : Type} (p : α → Bool) (f : α → Bytes) (sep : Bytes) (a b : List α) :
    (((a ++ b).filter p).map f).flatMap (· ++ sep) = ((a.filter p).map f).flatMap (· ++ sep) ++ ((b.filter p).map f).flatMap (· ++ sep) := by
  rw [List.filter_append, List.map_append, List.flatMap_append]

/-- **C44**: the text of a name lists country, province, locality, organisation, organisational unit and common name as far as present. -/
theorem C44_name_text (n : PName) : pkixNameToString n = nameText n := by
  have hcn : (if n.commonName.length ≠ 0 then b!"CN=" ++ n.commonName ++ b!", " else []) =
      nameField (b!"CN" ++ b!"=") (if n.commonName = [] then [] else [n.commonName]) := by
    cases h : n.commonName with
    | nil => rfl
    | cons x xs =>
      rw [if_pos (by simp), if_neg (by simp)]
      rfl
  have hbuf : nameField (b!"C=") n.country ++ nameField (b!"ST=") n.province ++ nameField (b!"L=") n.locality ++
      nameField (b!"O=") n.org ++ nameField (b!"OU=") n.orgUnit ++ (if n.commonName.length ≠ 0 then b!"CN=" ++ n.commonName ++ b!", " else []) =
      (((nameParts n).filter (fun p => p.2 ≠ [])).map fieldText).flatMap (· ++ b!", ") := by
    have hsplit : nameParts n = [(b!"C", n.country)] ++ [(b!"ST", n.province)] ++ [(b!"L", n.locality)] ++ [(b!"O", n.org)] ++ [(b!"OU", n.orgUnit)] ++
        [(b!"CN", if n.commonName = [] then [] else [n.commonName])] := rfl
    rw [hsplit, filter_map_flatMap_append, filter_map_flatMap_append, filter_map_flatMap_append, filter_map_flatMap_append, filter_map_flatMap_append,
      hcn, ← nameField_eq, ← nameField_eq, ← nameField_eq, ← nameField_eq, ← nameField_eq, ← nameField_eq]
    rfl
  unfold pkixNameToString
  simp only
  rw [hbuf]
  show _ = (b!", ").intercalate (((nameParts n).filter (fun p => p.2 ≠ [])).map fieldText)
  generalize ((nameParts n).filter (fun p => p.2 ≠ [])).map fieldText = l
  cases l with
  | nil => rfl
  | cons x xs =>
    rw [flatMap_intercalate _ _ (by simp)]
    rw [if_pos (by simp)]
    rw [List.length_append, show (b!", ").length = 2 from rfl, Nat.add_sub_cancel, List.take_left']
    rfl

/-- **C44**: the description returned belongs to the certificate returned: its validity, serial number, the texts of its names, the name
    of its signature algorithm, and the hexadecimal fingerprints of its bytes, which identify the bytes as far as the hash functions do. -/
theorem C44_description {h : HashEnv} {sorter : Nat → SortProg} {clock : Nat → Int} {chains l : List (List Cert)} {d : CertDesc} {c : Cert}
    (hp : pickBestInfo h sorter clock chains = .ok (some (d, c), l)) :
    pickBest sorter clock chains = .ok (some c, l) ∧
      d = { md5 := hexText (h.md5 c.raw), sha1 := hexText (h.sha1 c.raw), sha256 := hexText (h.sha256 c.raw), validFrom := c.notBefore, validTo := c.notAfter,
            issuer := nameText c.issuer, subject := nameText c.subject, sigAlg := h.algName c.sigAlg, serial := c.serial } ∧
      (∀ b, d.sha256 = hexText b ↔ b = h.sha256 c.raw) ∧ (∀ b, d.sha1 = hexText b ↔ b = h.sha1 c.raw) ∧
      (∀ b, d.md5 = hexText b ↔ b = h.md5 c.raw) := by
  have inj : ∀ {a b : Bytes}, hexText a = hexText b → a = b := fun e => hexEncode_inj (by rw [hexEncode_eq, hexEncode_eq, e])
  unfold pickBestInfo at hp
  split at hp
  · cases hp
  · cases hp
  · rename_i c' l' hb
    cases hp
    refine ⟨hb, ?_, fun b => ⟨fun e => ?_, fun e => ?_⟩, fun b => ⟨fun e => ?_, fun e => ?_⟩, fun b => ⟨fun e => ?_, fun e => ?_⟩⟩
    · rw [← hexEncode_eq, ← hexEncode_eq, ← hexEncode_eq, ← C44_name_text, ← C44_name_text]
      rfl
    · exact (inj ((hexEncode_eq _).symm.trans e)).symm
    · rw [e]; exact hexEncode_eq _
    · exact (inj ((hexEncode_eq _).symm.trans e)).symm
    · rw [e]; exact hexEncode_eq _
    · exact (inj ((hexEncode_eq _).symm.trans e)).symm
    · rw [e]; exact hexEncode_eq _

/-- **C47** (false of the code for names): different subjects have the same text, so the text of a name does not identify it. -/
theorem C47_names_ambiguous : ∃ n m : PName, n.commonName ≠ m.commonName ∧ n.org ≠ m.org ∧ pkixNameToString n = pkixNameToString m :=
  ⟨{ org := [b!"Android, CN=Debug"] }, { org := [b!"Android"], commonName := b!"Debug" }, by decide, by decide, by decide⟩

example : pkixNameToString { country := [b!"US"], org := [b!"A", b!"B"], commonName := b!"x" } = b!"C=US, O=A;B, CN=x" := by decide

/-- The hypotheses of `C44_after_verify` are met by an accepted APK, and one that is refused. -/
example : (∃ res, verifyTop (Toy.envT (Toy.doc (b!"21") (b!"30") (b!"1"))) Toy.ord (some Toy.exZip) (Toy.apkOf Toy.psV2) (-1) 35 = .ok (res, none) ∧
      res.certs ≠ []) ∧
    ∃ res, verifyTop (Toy.envT (Toy.doc (b!"21") (b!"30") (b!"1"))) Toy.ord (some Toy.exZip) Toy.plain (-1) 35 = .ok (res, some .targetSdk) ∧
      res.certs ≠ [] := by
  obtain ⟨_, ⟨res, h1, _, h2⟩, ⟨res', h1', _, h2'⟩, _⟩ := C35_examples
  exact ⟨⟨res, h1, fun h => by rw [h] at h2; cases h2⟩, res', h1', fun h => by rw [h] at h2'; cases h2'⟩

end Apk
