import Verif.Proofs.V1Verify
/-! # Where the reported v1 chains come from, in all outcomes -/
namespace Apk

/-- The chain is what `verifySignature` returned for one of the signatures. -/
def FromSig (env : Env1) (minSdk maxSdk : Int) (sigs : List Ready) (ch : List Cert) : Prop :=
  ∃ s ∈ sigs, ∃ e, verifySignature1 env s.p7 s.sm.rawData minSdk maxSdk = .ok (some ch, e)

theorem judge_from {env : Env1} {ord : Ord1} {mf : Manifest} {hasBlock : Bool} {minSdk maxSdk : Int} {s : Ready} {v : Verdict1}
    (h : judge env ord mf hasBlock minSdk maxSdk s = .ok v) :
    ∃ e, verifySignature1 env s.p7 s.sm.rawData minSdk maxSdk = .ok (v.chain, e) := by
  unfold judge at h
  split at h
  · cases h
  · rename_i c e hc
    cases h
    exact ⟨some e, hc⟩
  rename_i c hc
  split at h
  · cases h; exact ⟨none, hc⟩
  split at h
  · cases h; exact ⟨none, hc⟩
  split at h
  · cases h; exact ⟨none, hc⟩
  split at h
  · cases h; exact ⟨none, hc⟩
  · cases h; exact ⟨none, hc⟩

theorem judge_good_some {env : Env1} {ord : Ord1} {mf : Manifest} {hasBlock : Bool} {minSdk maxSdk : Int} {s : Ready} {c : Option (List Cert)}
    (h : judge env ord mf hasBlock minSdk maxSdk s = .ok (.good c)) : ∃ ch, c = some ch := by
  have h0 : verifySignature1 env s.p7 s.sm.rawData minSdk maxSdk = .ok (c, none) := by
    unfold judge at h
    split at h
    · cases h
    · cases h
    rename_i c' hc
    split at h
    · cases h
    split at h
    · cases h
    split at h
    · cases h
    split at h
    · cases h; exact hc
    · cases h
  obtain ⟨leaf, hl, _⟩ := verifySignature1_sound h0
  exact ⟨_, hl⟩

/-- All chains in the state come from signatures. -/
structure StFrom (env : Env1) (minSdk maxSdk : Int) (sigs : List Ready) (st : VState) : Prop where
  chain : ∀ ch ∈ st.chain, FromSig env minSdk maxSdk sigs ch
  valid : ∀ v ∈ st.valid, FromSig env minSdk maxSdk sigs v.chain

/-- The same for the result of the loop. -/
def ResFrom (env : Env1) (minSdk maxSdk : Int) (sigs : List Ready) : Except (List (List Cert) × V1E) VState → Prop
  | .ok st => StFrom env minSdk maxSdk sigs st
  | .error (c, _) => ∀ ch ∈ c, FromSig env minSdk maxSdk sigs ch

theorem verifyLoop_from {env : Env1} {ord : Ord1} {mf : Manifest} {hasBlock : Bool} {minSdk maxSdk : Int} {all ss : List Ready} {st : VState}
    (hss : ∀ s ∈ ss, s ∈ all) (h0 : StFrom env minSdk maxSdk all st) {r : Except (List (List Cert) × V1E) VState}
    (h : verifyLoop env ord mf hasBlock minSdk maxSdk ss st = .ok r) :
    ResFrom env minSdk maxSdk all r := by
  induction ss generalizing st with
  | nil => simp only [verifyLoop, Except.ok.injEq] at h; subst h; exact h0
  | cons s ss ih =>
    have hs := hss s List.mem_cons_self
    have hss' : ∀ x ∈ ss, x ∈ all := fun x hx => hss x (List.mem_cons_of_mem _ hx)
    rw [verifyLoop_cons] at h
    cases hj : judge env ord mf hasBlock minSdk maxSdk s with
    | error p => rw [hj] at h; cases h
    | ok v =>
      obtain ⟨e, he⟩ := judge_from hj
      have hch : ∀ ch ∈ st.chain ++ v.chain.toList, FromSig env minSdk maxSdk all ch := by
        intro ch hc
        rcases List.mem_append.1 hc with hc | hc
        · exact h0.chain ch hc
        · rw [Option.mem_toList] at hc
          rw [hc] at he
          exact ⟨s, hs, e, he⟩
      rw [hj] at h
      cases v with
      | stop c e => dsimp only at h; cases h; exact hch
      | bad c => exact ih hss' (st := st.add s (.bad c)) ⟨hch, h0.valid⟩ h
      | skip c => exact ih hss' (st := st.add s (.skip c)) ⟨hch, h0.valid⟩ h
      | good c =>
        refine ih hss' (st := st.add s (.good c)) ⟨hch, ?_⟩ h
        intro v hv
        rcases List.mem_append.1 hv with hv | hv
        · exact h0.valid v hv
        · rw [List.mem_singleton] at hv
          subst hv
          obtain ⟨ch, rfl⟩ := judge_good_some hj
          exact ⟨s, hs, e, he⟩

theorem coverLoop_from {env : Env1} {ord : Ord1} {z : Zip1} {mf : Manifest} {valid : List Valid} {minSdk maxSdk : Int} {sigs : List Ready}
    {chain0 : List (List Cert)} (h0 : ∀ ch ∈ chain0, FromSig env minSdk maxSdk sigs ch) (hv : ∀ v ∈ valid, FromSig env minSdk maxSdk sigs v.chain)
    {paths : List Bytes} {set : Option (List (List Cert))} (hset : ∀ c, set = some c → ∀ ch ∈ c, FromSig env minSdk maxSdk sigs ch)
    {c : List (List Cert)} {e : Option V1E} (h : coverLoop env ord z mf valid minSdk maxSdk chain0 paths set = .ok (c, e)) :
    ∀ ch ∈ c, FromSig env minSdk maxSdk sigs ch := by
  have hget : ∀ {set : Option (List (List Cert))}, (∀ c, set = some c → ∀ ch ∈ c, FromSig env minSdk maxSdk sigs ch) →
      ∀ ch ∈ set.getD chain0, FromSig env minSdk maxSdk sigs ch := by
    intro set hs
    cases set with
    | none => exact h0
    | some c => exact hs c rfl
  induction paths generalizing set with
  | nil => simp only [coverLoop, Except.ok.injEq, Prod.mk.injEq] at h; rw [← h.1]; exact hget hset
  | cons p ps ih =>
    simp only [coverLoop] at h
    split at h
    · cases h; exact hget hset
    split at h
    · cases h
    split at h
    · cases h; exact hget hset
    split at h
    · cases h; exact hget hset
    split at h
    · refine ih (set := some _) ?_ h
      intro c hc ch hch
      cases hc
      obtain ⟨v, hv', rfl⟩ := List.mem_map.1 hch
      exact hv v ((ord.cover_perm p valid).mem_iff.1 (List.mem_filter.1 hv').1)
    · split at h
      · exact ih hset h
      · cases h; exact hset _ rfl

theorem verifyV1Loaded_from {env : Env1} {ord : Ord1} {z : Zip1} {mf : Manifest} {sigs : List Ready} {hasBlock : Bool} {minSdk maxSdk : Int}
    {c : List (List Cert)} {e : Option V1E} (h : verifyV1Loaded env ord z mf sigs hasBlock minSdk maxSdk = .ok (c, e)) :
    ∀ ch ∈ c, FromSig env minSdk maxSdk sigs ch := by
  unfold verifyV1Loaded at h
  have hss : ∀ s ∈ ord.sigs sigs, s ∈ sigs := fun s hs => (ord.sigs_perm sigs).mem_iff.1 hs
  have hst : StFrom env minSdk maxSdk sigs {} := ⟨by simp, by simp⟩
  split at h
  · cases h
  · rename_i c' e' hl
    cases h
    exact verifyLoop_from hss hst hl
  · rename_i st hl
    have hst' : StFrom env minSdk maxSdk sigs st := verifyLoop_from hss hst hl
    split at h
    · cases h; exact hst'.chain
    split at h
    · cases h; exact hst'.chain
    split at h
    · cases h; exact hst'.chain
    unfold verifyMainManifest at h
    split at h
    · cases h; exact hst'.chain
    exact coverLoop_from hst'.chain hst'.valid (fun c hc => by cases hc) h

theorem extractLoop_from {env : Env1} {minSdk maxSdk : Int} {all ss : List Ready} (hss : ∀ s ∈ ss, s ∈ all) {st r : List (List Cert) × Bool}
    (h0 : ∀ ch ∈ st.1, FromSig env minSdk maxSdk all ch) (h : extractLoop env minSdk maxSdk ss st = .ok r) :
    ∀ ch ∈ r.1, FromSig env minSdk maxSdk all ch := by
  induction ss generalizing st with
  | nil => simp only [extractLoop, Except.ok.injEq] at h; subst h; exact h0
  | cons s ss ih =>
    simp only [extractLoop] at h
    split at h
    · cases h
    rename_i c e hv
    refine ih (fun x hx => hss x (List.mem_cons_of_mem _ hx)) ?_ h
    intro ch hc
    rcases List.mem_append.1 hc with hc | hc
    · exact h0 ch hc
    · rw [Option.mem_toList] at hc
      rw [hc] at hv
      exact ⟨s, hss s List.mem_cons_self, e, hv⟩

theorem signerLoop_error_mem {env : Env1} {p7 : P7} {sf : Bytes} {maxSdk : Int} {infos : List P7Signer} {first : Option Cert} {c : Cert} {e : SigE}
    (h : signerLoop env p7 sf maxSdk infos first = .ok (.error (some c, e))) : c ∈ p7.certs := by
  induction infos generalizing first with
  | nil => cases h
  | cons info infos ih =>
    simp only [signerLoop] at h
    split at h
    · cases h
    split at h
    · cases h
    rename_i cert hcert
    split at h
    · cases h; exact (certFor_some hcert).1
    split at h
    · cases h
    split at h
    · cases h; exact (certFor_some hcert).1
    · exact ih h
    split at h
    · cases h
    · exact ih h
    · exact ih h

/-- What `verifySignature` returns as a chain. -/
theorem verifySignature1_chain {env : Env1} {p7 : P7} {sf : Bytes} {minSdk maxSdk : Int} {ch : List Cert} {e : Option SigE}
    (h : verifySignature1 env p7 sf minSdk maxSdk = .ok (some ch, e)) :
    ∃ leaf rest, ch = leaf :: rest ∧ Linked env ch ∧ (∀ c ∈ ch, c ∈ p7.certs) ∧ ch.length ≤ p7.certs.length + 1 ∧
      (e = none → ChainEnd env p7.certs ch ∧ ∃ info ∈ considered p7 minSdk, GoodSigner env p7 sf maxSdk info leaf) ∧
      (e ≠ none → rest = []) := by
  cases e with
  | none =>
    obtain ⟨leaf, hl, info, hi, hg⟩ := verifySignature1_sound h
    cases hl
    obtain ⟨more, h1, h2, h3, h4, h5⟩ := buildChain_spec (env := env) hg.mem
    rw [h1]
    refine ⟨leaf, more, rfl, h2, ?_, h4, fun _ => ⟨h5, info, hi, hg⟩, fun hn => absurd rfl hn⟩
    intro c hc
    rcases List.mem_cons.1 hc with rfl | hc
    · exact hg.mem
    · exact h3 c hc
  | some e =>
    unfold verifySignature1 at h
    split at h
    · cases h
    split at h
    · cases h
    · rename_i c e' hl
      simp only [Except.ok.injEq, Prod.mk.injEq] at h
      cases c with
      | none => cases h.1
      | some c =>
        simp only [Option.map_some, Option.some.injEq] at h
        rw [← h.1]
        have := signerLoop_error_mem hl
        refine ⟨c, [], rfl, .single c, by simpa using this, by simp, (fun hn => by cases hn), fun _ => rfl⟩
    · cases h
    · cases h

end Apk
