import Verif.Spec.Scheme
import Verif.Model.Frosting
/-! # Specification of the Google Play frosting block, independent of the parser -/
namespace Apk

/-- Value of a base-128 number, least significant group first. -/
def lebVal : Bytes → Nat
  | [] => 0
  | b :: bs => b.toNat % 128 + 128 * lebVal bs

/-- The canonical encoding of a number as a varint. -/
def varint (n : Nat) : Bytes :=
  if n < 128 then [UInt8.ofNat n] else UInt8.ofNat (n % 128 + 128) :: varint (n / 128)
termination_by n
decreasing_by omega

/-- `v` is a varint of at most five bytes that stands for the 32-bit signed integer `n`. -/
def IsVarint (v : Bytes) (n : Int) : Prop :=
  ∃ init last, v = init ++ [last] ∧ (∀ x ∈ init, 128 ≤ x.toNat) ∧ last.toNat < 128 ∧ init.length ≤ 4 ∧ n = toI32 (lebVal v)

/-- A size and that many bytes. -/
def FramedItem (e : Bytes) : Prop := ∃ s body, e = s ++ body ∧ IsVarint s body.length

/-- The canonical encoding of one array item: its size and its bytes. -/
def framedItem (y : Bytes) : Bytes := varint y.length ++ y

/-- `a` starts with an array whose item `i` is `item`: total size, framed entries, and the framed item, all inside the
    array, which lies inside `a`. (An empty item at the very end of `a` cannot be read.) -/
def ArrayItem (a : Bytes) (i : Nat) (item : Bytes) : Prop :=
  ∃ v0 entries s rest, ∃ total : Nat, a = v0 ++ List.flatten entries ++ s ++ item ++ rest ∧ IsVarint v0 total ∧ entries.length = i ∧
    (∀ e ∈ entries, FramedItem e) ∧ IsVarint s item.length ∧ (entries.flatten ++ s ++ item).length ≤ total ∧
    v0.length + total ≤ a.length ∧ (item ++ rest ≠ [])

/-- A disabled metadata entry: framed, and the first field of the body is a nonzero varint. -/
def DisabledEntry (e : Bytes) : Prop :=
  ∃ s f t, ∃ x : Int, e = s ++ f ++ t ∧ IsVarint s (f ++ t).length ∧ IsVarint f x ∧ x ≠ 0

/-- The layout of a frosting block. `signed` is what is signed: the protobuf and the metadata up to and including the first
    enabled entry, which has key index 0 and the file digest `sha`; `signature` is the item of the signature array with
    the same index as that entry. Because two size fields are not counted by the size checks, the digest may run over the
    end of the block by up to ten bytes, which read as zero. -/
def FrostBlock (block signed signature sha proto : Bytes) : Prop :=
  ∃ v0 v1 v2 dis v3 v4 v5 rest rest', ∃ pm msz : Nat,
    block = v0 ++ v1 ++ proto ++ v2 ++ List.flatten dis ++ v3 ++ v4 ++ v5 ++ rest ∧
    rest ++ List.replicate 10 0 = sha ++ rest' ∧ sha.length = 32 ∧
    signed = v1 ++ proto ++ v2 ++ dis.flatten ++ v3 ++ v4 ++ v5 ++ sha ∧ (v0 ++ signed).length < 2 ^ 31 ∧
    IsVarint v0 pm ∧ v0.length + pm ≤ block.length ∧
    IsVarint v1 proto.length ∧ proto ≠ [] ∧ v1.length + proto.length ≤ pm ∧
    IsVarint v2 msz ∧ proto.length + msz ≤ pm ∧
    (∀ d ∈ dis, DisabledEntry d) ∧ dis.length < 32767 ∧
    IsVarint v3 (v4 ++ v5 ++ sha).length ∧ IsVarint v4 0 ∧ IsVarint v5 0 ∧
    (dis.flatten ++ v3 ++ v4 ++ v5 ++ sha).length ≤ msz ∧
    ArrayItem (block.drop (v0.length + pm)) dis.length signature

/-- A valid ECDSA signature with SHA-256 by the pinned key: two positive integers, nothing after them. -/
def PinnedSigned (env : Env) (signed signature : Bytes) : Prop :=
  ∃ pk r s, env.parsePKIXStd env.frostKeyDer = some pk ∧ pk.kind = .ecdsa ∧ env.asn1RS signature = some (r, s, []) ∧
    0 < r ∧ 0 < s ∧ env.ecdsaVerify pk (env.sha256 signed) r s = true

/-- A frosting block signed with the pinned key that vouches for file digest and protobuf. -/
def FrostValid (env : Env) (block : Bytes) (sha proto : Bytes) : Prop :=
  ∃ signed signature, FrostBlock block signed signature sha proto ∧ PinnedSigned env signed signature

/-- What a frosting digest covers: everything but the signing block, with the central directory offset pointing to the
    signing block, and the v2 block (if there is one that is not empty) after the contents. -/
def frostingInput (head cd rec : Bytes) (v2 : Option Bytes) : Bytes :=
  head ++ (match v2 with | none => [] | some b => if b = [] then [] else leBytes 4 0x7109871a ++ b) ++ cd ++
    redirected rec head.length

end Apk
