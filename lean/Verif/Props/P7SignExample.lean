import Verif.Props.P7Sign
/-! # C77: an example that meets the hypotheses -/
namespace Apk
open P7S
namespace Toy

/-- As `p7env`, with a clock format. -/
def s7env : P7Env := { p7env with timeBytes := fun _ t => some (23, [UInt8.ofNat (t / 10).toNat, UInt8.ofNat (t % 10).toNat]) }

def xSign : SignCert := ⟨xCert, dName (b!"x"), 77⟩
def ySign : SignCert := ⟨yCert, dName (b!"y"), 77⟩

/-- Two signers (with the same serial number but different issuers), one of them with an attribute of its own; a certificate twice. -/
def s7steps : List SignStep :=
  [.signer ySign (.rsa 77) 203 [([1, 2, 3], ⟨.int, (5 : Int)⟩)], .certificate xSign, .signer xSign (.rsa 77) 211 []]

/-- All of it. -/
def s7run (data : Bytes) (detached : Bool) : Option Bytes :=
  match newSignedData s7env data with
  | .error _ => none
  | .ok st0 =>
    match signSteps s7env st0 s7steps with
    | .ok (.ok st) => (finish s7env (if detached then detach st else st)).toOption
    | _ => none

theorem s7run_ok {data b : Bytes} {d : Bool} (h : s7run data d = some b) : ∃ st0 st, newSignedData s7env data = .ok st0 ∧ signSteps s7env st0 s7steps = .ok (.ok st) ∧
    finish s7env (if d then detach st else st) = .ok b := by
  unfold s7run at h
  cases hn : newSignedData s7env data with
  | error e => rw [hn] at h; cases h
  | ok st0 =>
    rw [hn] at h
    dsimp only at h
    rcases hs : signSteps s7env st0 s7steps with p | (e | st)
    · rw [hs] at h; cases h
    · rw [hs] at h; cases h
    · rw [hs] at h
      refine ⟨st0, st, rfl, hs, ?_⟩
      dsimp only at h
      cases hf : finish s7env (if d then detach st else st) with
      | error e => rw [hf] at h; cases h
      | ok b' => rw [hf] at h; cases h; rfl

def s7certCheck (c : SignCert) : Bool :=
  (match parseCert509 ce c.raw with | .ok (some (p, _)) => decide (p.serial = c.serial ∧ p.serial = 77) | _ => false) &&
  decide (rawIssuerOf ce c.raw = c.rawIssuer) && decide (c.rawIssuer ≠ []) && isDer c.rawIssuer && isDer c.raw && decide (c.raw.length < 1000 ∧ c.rawIssuer.length < 1000)

theorem s7cert {c : SignCert} (h : s7certCheck c = true) : ∃ p, CertAgrees ce c p ∧ p.serial = 77 := by
  unfold s7certCheck at h
  simp only [Bool.and_eq_true, decide_eq_true_eq] at h
  obtain ⟨⟨⟨⟨⟨h1, h2⟩, h3⟩, h4⟩, h5⟩, h6, h7⟩ := h
  rcases hp : parseCert509 ce c.raw with e | (_ | ⟨p, k⟩)
  · rw [hp] at h1; cases h1
  · rw [hp] at h1; cases h1
  · rw [hp] at h1
    have h1 := of_decide_eq_true h1
    obtain ⟨t1, _, d1⟩ := block_der h4 (by omega)
    obtain ⟨t2, _, d2⟩ := block_der h5 (by omega)
    exact ⟨p, ⟨⟨k, parseCert509_iff.1 hp⟩, h1.1, (P7M.rawIssuer_iff h3).1 h2, Mar.derSeq_one d1, Mar.derSeq_one d2⟩, h1.2⟩

theorem s7key {p : Cert} (h : p.serial = 77) : KeyAgrees s7env (.rsa 77) p := by
  intro k x sig hk hs
  cases hk
  have hs : some (x ++ [UInt8.ofNat 77]) = some sig := hs
  cases hs
  show decide (X509Alg.sha1Rsa = .sha1Rsa ∧ _ = x ++ [UInt8.ofNat p.serial.toNat]) = true
  rw [h]
  simp

/-- The steps of the example are sensible. -/
theorem s7steps_ok : ∃ parsed, ListRel (fun s p => CertAgrees s7env.toCertEnv s.cert p ∧ StepOk s7env (s7steps.map SignStep.cert) s p) s7steps parsed := by
  obtain ⟨px, hx, ex⟩ := s7cert (c := xSign) (by decide +kernel)
  obtain ⟨py, hy, ey⟩ := s7cert (c := ySign) (by decide +kernel)
  have hne : dName (b!"y") ≠ dName (b!"x") := by decide
  have hu : ∀ c ∈ s7steps.map SignStep.cert, c = xSign ∨ c = ySign := by
    intro c hc
    simp only [s7steps, SignStep.cert, List.map_cons, List.map_nil, List.mem_cons, List.not_mem_nil, or_false] at hc
    rcases hc with rfl | rfl | rfl
    · exact .inr rfl
    · exact .inl rfl
    · exact .inl rfl
  have hux : ∀ c' ∈ s7steps.map SignStep.cert, c'.rawIssuer = xSign.rawIssuer → c'.serial = xSign.serial → c'.raw = xSign.raw := by
    intro c hc e _
    rcases hu c hc with rfl | rfl
    · rfl
    · exact absurd e hne
  have huy : ∀ c' ∈ s7steps.map SignStep.cert, c'.rawIssuer = ySign.rawIssuer → c'.serial = ySign.serial → c'.raw = ySign.raw := by
    intro c hc e _
    rcases hu c hc with rfl | rfl
    · exact absurd e.symm hne
    · rfl
  refine ⟨[py, px, px], .cons ⟨hy, s7key ey, ?_, huy⟩ (.cons ⟨hx, trivial⟩ (.cons ⟨hx, s7key ex, ?_, hux⟩ .nil))⟩
  · intro z hz
    simp only [List.mem_cons, List.not_mem_nil, or_false] at hz
    subst hz
    refine ⟨⟨by decide, by decide, by decide, ?_⟩, by decide, int_parts zero_tag⟩
    decide
  · intro z hz; cases hz

/-- Whether a step adds a signer. -/
def signs : SignStep → Bool
  | .signer .. => true
  | .certificate _ => false

theorem infosFor_length {env : P7Env} {data : Bytes} {steps : List SignStep} {infos : List P7Info} (h : InfosFor env data steps infos) :
    infos.length = (steps.filter signs).length := by
  induction h with
  | nil => rfl
  | certificate _ ih => exact ih
  | signer _ _ ih => rw [List.length_cons, ih]; rfl

theorem s7hash (x : Bytes) : s7env.hash .sha1 x = x := rfl

theorem s7differ : s7env.hash .sha1 [] ≠ s7env.hash .sha1 [1, 2, 3] := by
  rw [s7hash, s7hash]; decide

theorem s7len : (s7steps.map (fun s => s.cert.raw)).flatten.length < 2 ^ 31 := by decide +kernel

end Toy

/-- C77: the example, with its contents: it is made, it is read and it verifies. -/
theorem C77_example : ∃ b m, Toy.s7run [1, 2, 3] false = some b ∧ parseMsg Toy.ce b = .ok (some m) ∧ m.content = [1, 2, 3] ∧ m.certs.length = 3 ∧ m.infos.length = 2 ∧
    verifyMsg Toy.s7env m = .ok (.ok ()) := by
  have hsome : ((Toy.s7run [1, 2, 3] false).isSome && decide (((Toy.s7run [1, 2, 3] false).getD []).length < 10000)) = true := by decide +kernel
  cases hr : Toy.s7run [1, 2, 3] false with
  | none => rw [hr] at hsome; cases hsome
  | some b =>
    rw [hr] at hsome
    have hl : b.length < 10000 := by simpa using hsome
    obtain ⟨st0, st, h1, h2, h3⟩ := Toy.s7run_ok hr
    obtain ⟨parsed, hp⟩ := Toy.s7steps_ok
    obtain ⟨m, infos, i1, i2, i3, _, i5, i6, i7⟩ := C77_signed_message h1 h2 h3 hp (by omega) Toy.s7len
    refine ⟨b, m, rfl, i1, i2, ?_, ?_, i7 ⟨_, _, _, _, List.mem_cons_self⟩⟩
    · rw [i3]
      cases hp with | cons _ h => cases h with | cons _ h => cases h with | cons _ h => cases h; rfl
    · rw [← i6.length_eq]
      exact Toy.infosFor_length i5

/-- C77: the example without its contents. Other contents are refused. -/
theorem C77_example_detached : ∃ b m, Toy.s7run [1, 2, 3] true = some b ∧ parseMsg Toy.ce b = .ok (some m) ∧ m.content = [] ∧
    verifyMsg Toy.s7env { m with content := [1, 2, 3] } = .ok (.ok ()) ∧ verifyMsg Toy.s7env m ≠ .ok (.ok ()) := by
  have hsome : ((Toy.s7run [1, 2, 3] true).isSome && decide (((Toy.s7run [1, 2, 3] true).getD []).length < 10000)) = true := by decide +kernel
  cases hr : Toy.s7run [1, 2, 3] true with
  | none => rw [hr] at hsome; cases hsome
  | some b =>
    rw [hr] at hsome
    have hl : b.length < 10000 := by simpa using hsome
    obtain ⟨st0, st, h1, h2, h3⟩ := Toy.s7run_ok hr
    obtain ⟨parsed, hp⟩ := Toy.s7steps_ok
    obtain ⟨m, infos, i1, i2, i3, _, i5, i6, i7⟩ := C77_detached h1 h2 h3 hp (by omega) Toy.s7len
    have hs : ∃ c key now extra, SignStep.signer c key now extra ∈ Toy.s7steps := ⟨_, _, _, _, List.mem_cons_self⟩
    refine ⟨b, m, rfl, i1, i2, i7 hs, ?_⟩
    intro hv
    have hv' : verifyMsg Toy.s7env { m with content := [] } = .ok (.ok ()) := by
      rw [← i2]; exact hv
    exact Toy.s7differ (C77_other_contents_refused i1 i5 i6 hs hv' (i7 hs))

end Apk
