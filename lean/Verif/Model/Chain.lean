import Verif.Model.CertFull
/-!
# Certificate chains (internal/x509andr/verify.go, cert_pool.go)

Nothing in the module calls `Certificate.Verify` or `VerifyHostname`; they are modelled as the exported functions of that package.
Errors are not told apart: `none` is an error.
-/
namespace Apk

/-- What the functions below call: hash functions, signature checks, and Go library functions on text.
    `clock` is the time when `CurrentTime` is zero; all readings of the clock during one call are taken to be the same. -/
structure ChainEnv where
  /-- crypto.Hash: available hash functions, by number (3: SHA-1, 5: SHA-256, 6: SHA-384, 7: SHA-512) -/
  hash : Nat → Option (Bytes → Bytes)
  /-- rsa.VerifyPSS == nil, salt as long as the hash -/
  rsaPss : Nat → Key → Bytes → Bytes → Bool
  /-- rsa.VerifyPKCS1v15 == nil -/
  rsaPkcs1 : Nat → Key → Bytes → Bytes → Bool
  /-- dsa.Verify, ecdsa.Verify -/
  dsaVerify : Key → Bytes → Int → Int → Bool
  ecdsaVerify : Key → Bytes → Int → Int → Bool
  /-- asn1andr.Unmarshal of two integers, and the rest -/
  asn1RS : Bytes → Option (Int × Int × Bytes)
  /-- strings.EqualFold -/
  equalFold : Bytes → Bytes → Bool
  /-- net.ParseIP; 16 bytes -/
  parseIP : Bytes → Option Bytes
  clock : Int
  /-- systemRootsPool() -/
  systemRoots : Option (List CertFull)

/-- x509.go:767-805 `entrustBrokenSPKI`. -/
def entrustBrokenSPKI : Bytes := [0x30, 0x82, 0x01, 0x22, 0x30, 0x0d, 0x06, 0x09, 0x2a, 0x86, 0x48, 0x86, 0xf7, 0x0d, 0x01, 0x01, 0x01, 0x05, 0x00, 0x03, 0x82, 0x01, 0x0f, 0x00, 0x30, 0x82, 0x01, 0x0a, 0x02, 0x82, 0x01, 0x01, 0x00, 0x97, 0xa3, 0x2d, 0x3c, 0x9e, 0xde, 0x05, 0xda, 0x13, 0xc2, 0x11, 0x8d, 0x9d, 0x8e, 0xe3, 0x7f, 0xc7, 0x4b, 0x7e, 0x5a, 0x9f, 0xb3, 0xff, 0x62, 0xab, 0x73, 0xc8, 0x28, 0x6b, 0xba, 0x10, 0x64, 0x82, 0x87, 0x13, 0xcd, 0x57, 0x18, 0xff, 0x28, 0xce, 0xc0, 0xe6, 0x0e, 0x06, 0x91, 0x50, 0x29, 0x83, 0xd1, 0xf2, 0xc3, 0x2a, 0xdb, 0xd8, 0xdb, 0x4e, 0x04, 0xcc, 0x00, 0xeb, 0x8b, 0xb6, 0x96, 0xdc, 0xbc, 0xaa, 0xfa, 0x52, 0x77, 0x04, 0xc1, 0xdb, 0x19, 0xe4, 0xae, 0x9c, 0xfd, 0x3c, 0x8b, 0x03, 0xef, 0x4d, 0xbc, 0x1a, 0x03, 0x65, 0xf9, 0xc1, 0xb1, 0x3f, 0x72, 0x86, 0xf2, 0x38, 0xaa, 0x19, 0xae, 0x10, 0x88, 0x78, 0x28, 0xda, 0x75, 0xc3, 0x3d, 0x02, 0x82, 0x02, 0x9c, 0xb9, 0xc1, 0x65, 0x77, 0x76, 0x24, 0x4c, 0x98, 0xf7, 0x6d, 0x31, 0x38, 0xfb, 0xdb, 0xfe, 0xdb, 0x37, 0x02, 0x76, 0xa1, 0x18, 0x97, 0xa6, 0xcc, 0xde, 0x20, 0x09, 0x49, 0x36, 0x24, 0x69, 0x42, 0xf6, 0xe4, 0x37, 0x62, 0xf1, 0x59, 0x6d, 0xa9, 0x3c, 0xed, 0x34, 0x9c, 0xa3, 0x8e, 0xdb, 0xdc, 0x3a, 0xd7, 0xf7, 0x0a, 0x6f, 0xef, 0x2e, 0xd8, 0xd5, 0x93, 0x5a, 0x7a, 0xed, 0x08, 0x49, 0x68, 0xe2, 0x41, 0xe3, 0x5a, 0x90, 0xc1, 0x86, 0x55, 0xfc, 0x51, 0x43, 0x9d, 0xe0, 0xb2, 0xc4, 0x67, 0xb4, 0xcb, 0x32, 0x31, 0x25, 0xf0, 0x54, 0x9f, 0x4b, 0xd1, 0x6f, 0xdb, 0xd4, 0xdd, 0xfc, 0xaf, 0x5e, 0x6c, 0x78, 0x90, 0x95, 0xde, 0xca, 0x3a, 0x48, 0xb9, 0x79, 0x3c, 0x9b, 0x19, 0xd6, 0x75, 0x05, 0xa0, 0xf9, 0x88, 0xd7, 0xc1, 0xe8, 0xa5, 0x09, 0xe4, 0x1a, 0x15, 0xdc, 0x87, 0x23, 0xaa, 0xb2, 0x75, 0x8c, 0x63, 0x25, 0x87, 0xd8, 0xf8, 0x3d, 0xa6, 0xc2, 0xcc, 0x66, 0xff, 0xa5, 0x66, 0x68, 0x55, 0x02, 0x03, 0x01, 0x00, 0x01]

/-- x509.go:843-906 `checkSignature`; `true` is a nil error. Algorithms are numbered as in x509.go:182-199, hash functions as in package crypto. -/
def checkSigFor (env : ChainEnv) (algo : Nat) (signed signature : Bytes) (key : Key) : Bool :=
  let hashType := if algo = 3 ∨ algo = 7 ∨ algo = 9 then 3 else if algo = 4 ∨ algo = 13 ∨ algo = 8 ∨ algo = 10 then 5
    else if algo = 5 ∨ algo = 14 ∨ algo = 11 then 6 else if algo = 6 ∨ algo = 15 ∨ algo = 12 then 7 else 0
  if hashType = 0 then false
  else match env.hash hashType with
    | none => false
    | some h =>
      let digest := h signed
      match key with
      | .rsa _ _ => if algo = 13 ∨ algo = 14 ∨ algo = 15 then env.rsaPss hashType key digest signature else env.rsaPkcs1 hashType key digest signature
      | .dsa _ _ _ _ =>
        match env.asn1RS signature with
        | none => false
        | some (r, s, rest) => if rest.length ≠ 0 then false else if r ≤ 0 ∨ s ≤ 0 then false else env.dsaVerify key digest r s
      | .ecdsa _ _ _ =>
        match env.asn1RS signature with
        | none => false
        | some (r, s, rest) => if rest.length ≠ 0 then false else if r ≤ 0 ∨ s ≤ 0 then false else env.ecdsaVerify key digest r s
      | .none => false

/-- x509.go:809-831 `CheckSignatureFrom`; `true` is a nil error. -/
def checkSigFrom (env : ChainEnv) (c parent : CertFull) : Bool :=
  if ((decide (parent.version = 3) && !parent.ext.basicConstraintsValid) || (parent.ext.basicConstraintsValid && !parent.ext.isCA)) &&
      decide (c.base.spki ≠ entrustBrokenSPKI) then false
  else if decide (parent.ext.keyUsage ≠ 0) && decide (parent.ext.keyUsage &&& 2 ^ 5 = 0) then false
  else if parent.keyAlgo = .unknown then false
  else checkSigFor env c.base.sigAlg c.rawTbs c.signature parent.key

/-- cert_pool.go:14-18 `CertPool`; the maps are total functions, absent keys have the empty list. -/
structure CertPool where
  byKeyId : Bytes → List Nat := fun _ => []
  byName : Bytes → List Nat := fun _ => []
  certs : List CertFull := []

/-- cert_pool.go:69-82 `contains`. Numbers in the maps are positions in the list. -/
def CertPool.contains (s : CertPool) (cert : CertFull) : Bool :=
  (s.byName cert.rawSubject).any (fun i => match s.certs[i]? with | none => false | some x => decide (x.base.raw = cert.base.raw))

/-- cert_pool.go:85-104 `AddCert`. -/
def CertPool.add (s : CertPool) (cert : CertFull) : CertPool :=
  if s.contains cert then s
  else
    let n := s.certs.length
    { certs := s.certs ++ [cert],
      byKeyId := if cert.ext.subjectKeyId.length > 0 then
          fun k => if k = cert.ext.subjectKeyId then s.byKeyId k ++ [n] else s.byKeyId k
        else s.byKeyId,
      byName := fun k => if k = cert.rawSubject then s.byName k ++ [n] else s.byName k }

/-- A pool to which certificates were added, in this order (`NewCertPool`, cert_pool.go:21-26). -/
def CertPool.of (l : List CertFull) : CertPool := l.foldl CertPool.add {}

/-- cert_pool.go:45-67 `findVerifiedParents`: the numbers of the parents. A nil pool is an empty pool here. -/
def CertPool.parents (env : ChainEnv) (s : CertPool) (cert : CertFull) : List Nat :=
  let byId := if cert.ext.authorityKeyId.length > 0 then s.byKeyId cert.ext.authorityKeyId else []
  let candidates := if byId.length = 0 then s.byName cert.rawIssuer else byId
  candidates.filter (fun i => match s.certs[i]? with | none => false | some p => checkSigFrom env cert p)

/-- verify.go:149-159 `VerifyOptions`; `roots` nil: the system roots; `time` zero: the clock. -/
structure VerifyOptions where
  dnsName : Bytes := []
  intermediates : List CertFull := []
  roots : Option (List CertFull) := none
  time : Option Int := none
  keyUsages : List Int := []

/-- The time at which certificates have to be valid (verify.go:201-204). -/
def VerifyOptions.now (o : VerifyOptions) (env : ChainEnv) : Int := o.time.getD env.clock

/-- verify.go:167-190 `matchNameConstraint`. -/
def matchNameConstraint (env : ChainEnv) (domain constraint : Bytes) : Bool :=
  if constraint.length = 0 then true
  else if domain.length < constraint.length then false
  else
    let prefixLen := domain.length - constraint.length
    if !env.equalFold (domain.drop prefixLen) constraint then false
    else if prefixLen = 0 then true
    else (decide (domain.getD (prefixLen - 1) 0 = 46)) != (decide (constraint.getD 0 0 = 46))

/-- verify.go:161-165 -/
inductive CertRole where
  | leaf | intermediate | root
deriving DecidableEq, Repr

/-- verify.go:194-199: the last certificate of the chain names another issuer. -/
def wrongIssuer (currentChain : List CertFull) (c : CertFull) : Bool :=
  match currentChain.getLast? with
  | none => false
  | some child => decide (child.rawIssuer ≠ c.rawSubject)

/-- verify.go:193-258 `isValid`; `true` is a nil error. -/
def certIsValid (env : ChainEnv) (opts : VerifyOptions) (role : CertRole) (currentChain : List CertFull) (c : CertFull) : Bool :=
  if wrongIssuer currentChain c then false
  else if opts.now env < c.base.notBefore ∨ opts.now env > c.base.notAfter then false
  else if decide (c.ext.permitted.length > 0) && !c.ext.permitted.any (matchNameConstraint env opts.dnsName) then false
  else if c.ext.excluded.any (matchNameConstraint env opts.dnsName) then false
  else if role = .intermediate ∧ (c.ext.basicConstraintsValid = false ∨ c.ext.isCA = false) then false
  else if c.ext.basicConstraintsValid = true ∧ c.ext.maxPathLen ≥ 0 ∧ (currentChain.length : Int) - 1 > c.ext.maxPathLen then false
  else true

/-- The map `cache` of `buildChains`: newest entries first. -/
abbrev ChainCache := List (Nat × List (List CertFull))

/-- verify.go:371-393: the loop over the possible intermediates; `rec` is `buildChains`. -/
def interLoop (env : ChainEnv) (opts : VerifyOptions) (pool : CertPool) (current : List CertFull)
    (rec : ChainCache → CertFull → List CertFull → Option (List (List CertFull) × ChainCache)) :
    List Nat → ChainCache → List (List CertFull) → Option (List (List CertFull) × ChainCache)
  | [], cache, chains => some (chains, cache)
  | i :: is, cache, chains =>
    match pool.certs[i]? with
    | none => interLoop env opts pool current rec is cache chains
    | some m =>
      if current.any (fun x => decide (x.base.raw = m.base.raw)) then interLoop env opts pool current rec is cache chains
      else if !certIsValid env opts .intermediate current m then interLoop env opts pool current rec is cache chains
      else match mget cache i with
        | some l => interLoop env opts pool current rec is cache (chains ++ l)
        | none =>
          match rec cache m (current ++ [m]) with
          | none => none
          | some (l, cache) => interLoop env opts pool current rec is ((i, l) :: cache) (chains ++ l)

/-- verify.go:354-369: the chains that end here with a root. -/
def rootChains (env : ChainEnv) (opts : VerifyOptions) (roots : CertPool) (current : List CertFull) (c : CertFull) : List (List CertFull) :=
  (roots.parents env c).filterMap (fun i =>
    match roots.certs[i]? with
    | none => none
    | some r =>
      if current.any (fun x => decide (x.base.raw = r.base.raw)) then none
      else if !certIsValid env opts .root current r then none
      else some (current ++ [r]))

/-- verify.go:353-409 `buildChains`: the chains and the cache; an empty list comes with an error (verify.go:395-406), a non-empty one without.
    The number bounds the depth of the recursion; `none`: it was not enough. -/
def buildChains (env : ChainEnv) (opts : VerifyOptions) (roots inters : CertPool) : Nat → ChainCache → CertFull → List CertFull →
    Option (List (List CertFull) × ChainCache)
  | 0, _, _, _ => none
  | fuel + 1, cache, c, current =>
    interLoop env opts inters current (buildChains env opts roots inters fuel) (inters.parents env c) cache (rootChains env opts roots current c)

/-- Go strings.TrimSuffix(s, "."). -/
def trimDot (b : Bytes) : Bytes := if b.getLast? = some 46 then b.dropLast else b

/-- verify.go:426-433: the loop over the parts. -/
def partsMatch : Nat → List Bytes → List Bytes → Bool
  | _, [], _ => true
  | i, p :: ps, hs =>
    if i = 0 ∧ p = b!"*" then partsMatch (i + 1) ps (hs.drop 1)
    else if p ≠ hs.getD 0 [] then false
    else partsMatch (i + 1) ps (hs.drop 1)

/-- verify.go:411-436 `matchHostnames`. -/
def matchHostnames (pattern host : Bytes) : Bool :=
  let host := trimDot host
  let pattern := trimDot pattern
  if pattern.length = 0 ∨ host.length = 0 then false
  else if (splitByte 46 pattern).length ≠ (splitByte 46 host).length then false
  else partsMatch 0 (splitByte 46 pattern) (splitByte 46 host)

/-- verify.go:441-468 `toLowerCaseASCII`. The look for upper-case letters first changes nothing: texts without such letters stay as they are. -/
def toLowerCaseASCII (b : Bytes) : Bytes := b.map (fun c => if 65 ≤ c.toNat ∧ c.toNat ≤ 90 then c + 32 else c)

/-- net.IP.Equal for an address of 16 bytes (`a`): an IPv4 address is equal to its form of 16 bytes. -/
def ipEqual (a b : Bytes) : Bool :=
  if a.length = b.length then decide (a = b)
  else if b.length = 4 then decide (a.length = 16 ∧ a.take 12 = [0,0,0,0,0,0,0,0,0,0,0xff,0xff] ∧ a.drop 12 = b) else false

/-- x509.go:754-756 `hasSANExtension`. -/
def hasSan (c : CertFull) : Bool := c.extensions.any (fun e => decide (e.1 = [2,5,29,17]))

/-- verify.go:472-503 `VerifyHostname`; `true` is a nil error. -/
def verifyHostname (env : ChainEnv) (c : CertFull) (h : Bytes) : Bool :=
  let candidateIP := if h.length ≥ 3 ∧ h.getD 0 0 = 91 ∧ h.getD (h.length - 1) 0 = 93 then (h.drop 1).take (h.length - 2) else h
  match env.parseIP candidateIP with
  | some ip => c.ext.ips.any (fun x => ipEqual ip x)
  | none =>
    let lowered := toLowerCaseASCII h
    if hasSan c then c.ext.dnsNames.any (fun m => matchHostnames (toLowerCaseASCII m) lowered)
    else matchHostnames (toLowerCaseASCII c.base.subject.commonName) lowered

/-- verify.go:542-553: one requested usage against one certificate. -/
def usageKept (cert : CertFull) (u : Int) : Bool :=
  cert.ext.extKeyUsage.any (fun (k : Nat) => decide ((k : Int) = u) || (decide (u = 1) && (decide (k = 11) || decide (k = 10))))

/-- verify.go:536-560: the inner loop, `NextRequestedUsage`; `remaining` counts down, and `false` is returned when it reaches 0. -/
def crossOut (cert : CertFull) : List Int → Nat → Option (List Int × Nat)
  | [], n => some ([], n)
  | u :: us, n =>
    if u = -1 ∨ usageKept cert u = true then
      match crossOut cert us n with
      | none => none
      | some (l, n) => some (u :: l, n)
    else if n - 1 = 0 then none
    else match crossOut cert us (n - 1) with
      | none => none
      | some (l, n) => some (-1 :: l, n)

/-- verify.go:519-561: the loop over the certificates, from the root to the leaf. -/
def usageLoop : List CertFull → List Int → Nat → Bool
  | [], _, _ => true
  | cert :: rest, usages, n =>
    if cert.ext.extKeyUsage.length = 0 ∧ cert.ext.unknownExtKeyUsage.length = 0 then usageLoop rest usages n
    else if cert.ext.extKeyUsage.any (fun k => decide (k = 0)) then usageLoop rest usages n
    else match crossOut cert usages n with
      | none => false
      | some (usages, n) => usageLoop rest usages n

/-- verify.go:505-565 `checkChainForKeyUsage`. -/
def checkChainForKeyUsage (chain : List CertFull) (keyUsages : List Int) : Bool :=
  if chain.length = 0 then false else usageLoop chain.reverse keyUsages keyUsages.length

/-- verify.go:320-343: the chains that are good for one of the usages. -/
def usageFilter (keyUsages : List Int) (candidates : List (List CertFull)) : Option (List (List CertFull)) :=
  let usages := if keyUsages.length = 0 then [1] else keyUsages
  if usages.any (fun u => decide (u = 0)) then some candidates
  else
    let chains := candidates.filter (fun c => checkChainForKeyUsage c usages)
    if chains.length = 0 then none else some chains

/-- verify.go:293-299: the roots that are used; `none`: there are none. -/
def VerifyOptions.rootList (o : VerifyOptions) (env : ChainEnv) : Option (List CertFull) :=
  match o.roots with
  | some r => some r
  | none => env.systemRoots

/-- verify.go:269-344 `Certificate.Verify`, not on Windows; `none` is an error. -/
def verifyChain (env : ChainEnv) (opts : VerifyOptions) (c : CertFull) : Option (List (List CertFull)) :=
  if c.base.raw.length = 0 then none
  else if opts.intermediates.any (fun x => decide (x.base.raw.length = 0)) then none
  else if c.ext.unhandled.length > 0 then none
  else match opts.rootList env with
    | none => none
    | some rootList =>
      let roots := CertPool.of rootList
      if !certIsValid env opts .leaf [] c then none
      else if decide (opts.dnsName.length > 0) && !verifyHostname env c opts.dnsName then none
      else if roots.contains c then usageFilter opts.keyUsages [[c]]
      else match buildChains env opts roots (CertPool.of opts.intermediates) (opts.intermediates.length + 1) [] c [c] with
        | none => none
        | some (chains, _) => if chains.length = 0 then none else usageFilter opts.keyUsages chains

end Apk
