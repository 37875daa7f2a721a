import Verif.Model.Block
import Verif.Props.Container
import Verif.Props.Digest
import Verif.Props.Verdict
import Verif.Props.Attack
import Verif.Props.Tamper
import Verif.Props.Signers
import Verif.Props.Ranges
import Verif.Props.Independence
import Verif.Props.Panics
import Verif.Props.Stamp
import Verif.Props.Frosting
import Verif.Props.Manifest
import Verif.Props.Ber
import Verif.Props.Asn1
import Verif.Props.V1
import Verif.Props.V1Auth
import Verif.Props.Top
import Verif.Props.TopMore
import Verif.Props.Strings
import Verif.Props.CertInfo
import Verif.Props.CertInfoTop
import Verif.Model.Pkcs7
import Verif.Proofs.Unmarshal
import Verif.Spec.Der
import Verif.Proofs.Der
import Verif.Proofs.DerField
import Verif.Proofs.DerGrammar
import Verif.Spec.Pkcs7
import Verif.Proofs.DerEnc
import Verif.Proofs.X509
import Verif.Props.Der
import Verif.Proofs.Pkcs7
import Verif.Proofs.Attrs
import Verif.Proofs.Keys
import Verif.Props.Pkcs7
import Verif.Props.Keys
import Verif.Props.DerJar
import Verif.Model.ApiLevel
import Verif.Model.Asn1
import Verif.Model.Base
import Verif.Model.Ber
import Verif.Model.CertInfo
import Verif.Model.Container
import Verif.Model.Digest
import Verif.Model.Frosting
import Verif.Model.Manifest
import Verif.Model.Name
import Verif.Model.Signer
import Verif.Model.Stamp
import Verif.Model.Strings
import Verif.Model.Top
import Verif.Model.Types
import Verif.Model.Unmarshal
import Verif.Model.V1
import Verif.Model.V2
import Verif.Model.V3
import Verif.Model.X509
import Verif.Proofs.Asn1
import Verif.Proofs.Base
import Verif.Proofs.Ber
import Verif.Proofs.Binding
import Verif.Proofs.Blocks
import Verif.Proofs.CertInfo
import Verif.Proofs.Container
import Verif.Proofs.Digest
import Verif.Proofs.Finalize
import Verif.Proofs.Frame
import Verif.Proofs.Frosting
import Verif.Proofs.Functional
import Verif.Proofs.Integrity
import Verif.Proofs.IntegrityEq
import Verif.Proofs.Layout
import Verif.Proofs.Lineage
import Verif.Proofs.Manifest
import Verif.Proofs.ManifestTrim
import Verif.Proofs.ManifestWrite
import Verif.Proofs.NotFound
import Verif.Proofs.Pairs
import Verif.Proofs.Panic
import Verif.Proofs.Scheme
import Verif.Proofs.Signer
import Verif.Proofs.Sim
import Verif.Proofs.Stamp
import Verif.Proofs.StampEnd
import Verif.Proofs.StampFull
import Verif.Proofs.Strings
import Verif.Proofs.Tamper
import Verif.Proofs.Top
import Verif.Proofs.Trace
import Verif.Proofs.V1Chains
import Verif.Proofs.V1Entry
import Verif.Proofs.V1Exact
import Verif.Proofs.V1ExactLoad
import Verif.Proofs.V1Load
import Verif.Proofs.V1Panic
import Verif.Proofs.V1Sig
import Verif.Proofs.V1Text
import Verif.Proofs.V1Verify
import Verif.Proofs.V2
import Verif.Proofs.V3
import Verif.Proofs.V31
import Verif.Proofs.V3Signer
import Verif.Proofs.Verdict
import Verif.Proofs.Verity
import Verif.Spec.Asn1
import Verif.Spec.Ber
import Verif.Spec.Bytes
import Verif.Spec.Container
import Verif.Spec.Digest
import Verif.Spec.Frosting
import Verif.Spec.Manifest
import Verif.Spec.Panic
import Verif.Spec.Scheme
import Verif.Spec.Sections
import Verif.Spec.Signer
import Verif.Spec.Stamp
import Verif.Spec.Text
import Verif.Spec.Top
import Verif.Spec.V1
import Verif.Spec.V1Exact
import Verif.Spec.V3
import Verif.Spec.Verdict
import Verif.Toy
import Verif.ToyApk
import Verif.ToyDer
import Verif.ToyJar
import Verif.Proofs.BerRead
import Verif.Proofs.Name
import Verif.Proofs.V1ExactTop
import Verif.Props.Name
import Verif.Props.V1Exact
import Verif.Spec.BerRead
import Verif.Spec.Name
import Verif.Proofs.X509Exact
import Verif.Props.X509
import Verif.Spec.X509
import Verif.Proofs.P7Exact
import Verif.Proofs.TagString
import Verif.Props.P7Exact
import Verif.Spec.P7Exact
import Verif.Spec.TagString
import Verif.Model.Time
import Verif.Proofs.Time
import Verif.Props.Rendering
import Verif.Props.Time
import Verif.Spec.Rendering
import Verif.Spec.Time
import Verif.Model.Utf
import Verif.Proofs.Utf
import Verif.Props.Utf
import Verif.Spec.Utf
import Verif.Model.Curve
import Verif.Props.CertLayout
import Verif.Props.Curve
import Verif.Props.Real
import Verif.Spec.CertLayout
import Verif.Spec.Curve
import Verif.Proofs.Warnings
import Verif.Props.Warnings
import Verif.Spec.Warnings
import Verif.Props.Blank
import Verif.Spec.Blank
import Verif.Proofs.Sign
import Verif.Props.Sign
import Verif.Spec.Sign
import Verif.Props.VeritySplit
import Verif.Proofs.ManifestExact
import Verif.Props.ManifestExact
import Verif.Spec.ManifestExact
import Verif.Proofs.JarAccept
import Verif.Proofs.JarSign
import Verif.Props.JarSign
import Verif.Props.PackageSign
import Verif.Props.SignExample
import Verif.Spec.JarSign
import Verif.Model.Marshal
import Verif.Proofs.Marshal
import Verif.Proofs.MarshalFits
import Verif.Props.Marshal
import Verif.Spec.Marshal
import Verif.Model.P7Message
import Verif.Proofs.P7Message
import Verif.Proofs.P7Verify
import Verif.Props.P7Message
import Verif.Spec.P7Message
import Verif.Proofs.MarshalDer
import Verif.Proofs.P7Degenerate
import Verif.Proofs.P7Enc
import Verif.Proofs.P7Sign
import Verif.Proofs.P7Written
import Verif.Props.MarshalDer
import Verif.Props.P7Sign
import Verif.Props.P7SignExample
import Verif.Spec.P7Sign
import Verif.Model.Envelope
import Verif.Proofs.Envelope
import Verif.Proofs.EnvelopeTrip
import Verif.Proofs.EnvelopeWrite
import Verif.Props.Envelope
import Verif.Spec.Envelope
import Verif.Props.MarshalText
import Verif.Model.Io
import Verif.Proofs.Io
import Verif.Proofs.IoVerdict
import Verif.Props.Io
import Verif.Spec.Io
import Verif.Model.CertFull
import Verif.Proofs.CertFull
import Verif.Props.CertFull
import Verif.Spec.CertFull
import Verif.Props.ExtraBlocks
import Verif.Props.Narrow
import Verif.Model.Calendar
import Verif.Proofs.Calendar
import Verif.Props.Describe
import Verif.Spec.Describe
import Verif.Model.Chain
import Verif.Proofs.Chain
import Verif.Proofs.ChainFind
import Verif.Proofs.ChainHost
import Verif.Proofs.ChainUp
import Verif.Props.Chain
import Verif.Spec.Chain
import Verif.Model.Pem
import Verif.Proofs.Pem
import Verif.Props.Pem
import Verif.Spec.Pem
import Verif.Model.PrivKey
import Verif.Proofs.PrivKey
import Verif.Props.PrivKey
import Verif.Spec.PrivKey
import Verif.Model.Create
import Verif.Proofs.Create
import Verif.Proofs.CreateLoop
import Verif.Proofs.CreateNames
import Verif.Proofs.CreateOk
import Verif.Props.Create
import Verif.Spec.Create
import Verif.Model.CreateCert
import Verif.Proofs.CreateCert
import Verif.Props.CreateCert
import Verif.Spec.CreateCert
import Verif.Model.PoolPem
import Verif.Props.PoolPem
import Verif.Spec.PoolPem
