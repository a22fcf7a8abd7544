import Verif.Proofs.Items
import Verif.Proofs.Cose

/-!
# The library laws are satisfiable

`toy approve` is an environment satisfying all of `Laws`.  Its cryptography is of course no
cryptography, but it does what the laws say: signatures verify, sealed boxes open under the key
that sealed them and under no other, key agreement agrees, and encoded data is read back.
It is also used for concrete witnesses.
-/

namespace VF.Toy

open VF.Fido VF.Spec.Platform VF.Cbor

/-! ### Self-delimiting serialization -/

/-- Bytes, each after a 1, ended by a 0. -/
def ser : Bytes → Bytes
  | [] => [0]
  | b :: l => 1 :: b :: ser l

theorem ser_inj : ∀ {a b r s : Bytes}, ser a ++ r = ser b ++ s → a = b ∧ r = s
  | [], [], r, s, h => by simpa [ser] using h
  | [], _ :: _, r, s, h => by simp [ser] at h
  | _ :: _, [], r, s, h => by simp [ser] at h
  | x :: a, y :: b, r, s, h => by
    simp only [ser, List.cons_append, List.cons.injEq, true_and] at h
    obtain ⟨h1, h2⟩ := ser_inj h.2
    exact ⟨by rw [h.1, h1], h2⟩

/-- A list, each element after a 1, ended by a 0. -/
def serList {α : Type} (f : α → Bytes) : List α → Bytes
  | [] => [0]
  | a :: l => 1 :: (f a ++ serList f l)

theorem serList_inj {α : Type} {f : α → Bytes}
    (hf : ∀ {a b r s}, f a ++ r = f b ++ s → a = b ∧ r = s) :
    ∀ {a b : List α} {r s : Bytes}, serList f a ++ r = serList f b ++ s → a = b ∧ r = s
  | [], [], r, s, h => by simpa [serList] using h
  | [], _ :: _, r, s, h => by simp [serList] at h
  | _ :: _, [], r, s, h => by simp [serList] at h
  | x :: a, y :: b, r, s, h => by
    simp only [serList, List.cons_append, List.cons.injEq, true_and, List.append_assoc] at h
    obtain ⟨h1, h2⟩ := hf h
    obtain ⟨h3, h4⟩ := serList_inj hf h2
    exact ⟨by rw [h1, h3], h4⟩

def serNat (n : Nat) : Bytes := ser (BigInt.toBytes n)

theorem serNat_inj {a b : Nat} {r s : Bytes} (h : serNat a ++ r = serNat b ++ s) :
    a = b ∧ r = s := by
  obtain ⟨h1, h2⟩ := ser_inj h
  exact ⟨BigInt.toBytes_inj h1, h2⟩

def serOpt {α : Type} (f : α → Bytes) (o : Option α) : Bytes := serList f o.toList

theorem serOpt_inj {α : Type} {f : α → Bytes}
    (hf : ∀ {a b r s}, f a ++ r = f b ++ s → a = b ∧ r = s) {a b : Option α} {r s : Bytes}
    (h : serOpt f a ++ r = serOpt f b ++ s) : a = b ∧ r = s := by
  obtain ⟨h1, h2⟩ := serList_inj hf h
  cases a <;> cases b <;> simp_all

def serBool (b : Bool) : Bytes := [if b then 1 else 0]

theorem serBool_inj {a b : Bool} {r s : Bytes} (h : serBool a ++ r = serBool b ++ s) :
    a = b ∧ r = s := by
  cases a <;> cases b <;> simp_all [serBool]

def serInt : Int → Bytes
  | .ofNat n => 0 :: serNat n
  | .negSucc n => 1 :: serNat n

theorem serInt_inj {a b : Int} {r s : Bytes} (h : serInt a ++ r = serInt b ++ s) :
    a = b ∧ r = s := by
  cases a <;> cases b <;> simp only [serInt, List.cons_append, List.cons.injEq] at h
  · obtain ⟨h1, h2⟩ := serNat_inj h.2; simp [h1, h2]
  · exact absurd h.1 (by decide)
  · exact absurd h.1 (by decide)
  · obtain ⟨h1, h2⟩ := serNat_inj h.2; simp [h1, h2]

def serSource (s : SavedSource) : Bytes :=
  ser s.type ++ (ser s.id ++ (ser s.key ++ (ser s.rp.id ++ (ser s.rp.name ++
    (ser s.user.id ++ (ser s.user.displayName ++ (ser s.user.name ++ serNat s.counter.toNat)))))))

theorem serSource_inj {a b : SavedSource} {r s : Bytes}
    (h : serSource a ++ r = serSource b ++ s) : a = b ∧ r = s := by
  simp only [serSource, List.append_assoc] at h
  obtain ⟨h1, h⟩ := ser_inj h
  obtain ⟨h2, h⟩ := ser_inj h
  obtain ⟨h3, h⟩ := ser_inj h
  obtain ⟨h4, h⟩ := ser_inj h
  obtain ⟨h5, h⟩ := ser_inj h
  obtain ⟨h6, h⟩ := ser_inj h
  obtain ⟨h7, h⟩ := ser_inj h
  obtain ⟨h8, h⟩ := ser_inj h
  obtain ⟨h9, h⟩ := serNat_inj h
  rcases a with ⟨_, _, _, ⟨_, _⟩, ⟨_, _, _⟩, _⟩
  rcases b with ⟨_, _, _, ⟨_, _⟩, ⟨_, _, _⟩, _⟩
  have := UInt32.toNat_inj.1 h9
  simp_all

def serState (s : SavedState) : Bytes :=
  ser s.encryptionKey ++ (ser s.cert ++ (ser s.certKey ++ (serNat s.authCounter.toNat ++
    (serBool s.pinEnabled ++ (serOpt ser s.pinHash ++ serList serSource s.sources)))))

theorem serState_inj {a b : SavedState} (h : serState a = serState b) : a = b := by
  simp only [serState] at h
  obtain ⟨h1, h⟩ := ser_inj h
  obtain ⟨h2, h⟩ := ser_inj h
  obtain ⟨h3, h⟩ := ser_inj h
  obtain ⟨h4, h⟩ := serNat_inj h
  obtain ⟨h5, h⟩ := serBool_inj h
  obtain ⟨h6, h⟩ := serOpt_inj ser_inj h
  have h' : serList serSource a.sources ++ [] = serList serSource b.sources ++ [] := by simp [h]
  obtain ⟨h7, -⟩ := serList_inj serSource_inj h'
  have := UInt32.toNat_inj.1 h4
  cases a; cases b; simp_all

def serBlob (b : Blob) : Bytes :=
  ser b.salt ++ (ser b.encryptionKey ++ (ser b.keyNonce ++ (ser b.encryptedData ++ ser b.dataNonce)))

theorem serBlob_inj' {a b : Blob} {r s : Bytes} (h : serBlob a ++ r = serBlob b ++ s) :
    a = b ∧ r = s := by
  simp only [serBlob, List.append_assoc] at h
  obtain ⟨h1, h⟩ := ser_inj h
  obtain ⟨h2, h⟩ := ser_inj h
  obtain ⟨h3, h⟩ := ser_inj h
  obtain ⟨h4, h⟩ := ser_inj h
  obtain ⟨h5, h6⟩ := ser_inj h
  cases a; cases b; simp_all

theorem serBlob_inj {a b : Blob} (h : serBlob a = serBlob b) : a = b := by
  have h' : serBlob a ++ [] = serBlob b ++ [] := by simp [h]
  exact (serBlob_inj' h').1

def serECPub (k : ECPub) : Bytes := serBool k.p256 ++ (serNat k.x ++ serNat k.y)

theorem serECPub_inj {a b : ECPub} {r s : Bytes} (h : serECPub a ++ r = serECPub b ++ s) :
    a = b ∧ r = s := by
  simp only [serECPub, List.append_assoc] at h
  obtain ⟨h1, h⟩ := serBool_inj h
  obtain ⟨h2, h⟩ := serNat_inj h
  obtain ⟨h3, h⟩ := serNat_inj h
  cases a; cases b; simp_all

def serRSAPub (k : RSAPub) : Bytes := serNat k.n ++ serInt k.e

theorem serRSAPub_inj {a b : RSAPub} {r s : Bytes} (h : serRSAPub a ++ r = serRSAPub b ++ s) :
    a = b ∧ r = s := by
  simp only [serRSAPub, List.append_assoc] at h
  obtain ⟨h1, h⟩ := serNat_inj h
  obtain ⟨h2, h⟩ := serInt_inj h
  cases a; cases b; simp_all

def serPub (k : PubKey) : Bytes :=
  serOpt serECPub k.ecdsa ++ (serOpt ser k.ed25519 ++ serOpt serRSAPub k.rsa)

theorem serPub_inj {a b : PubKey} {r s : Bytes} (h : serPub a ++ r = serPub b ++ s) :
    a = b ∧ r = s := by
  simp only [serPub, List.append_assoc] at h
  obtain ⟨h1, h⟩ := serOpt_inj serECPub_inj h
  obtain ⟨h2, h⟩ := serOpt_inj ser_inj h
  obtain ⟨h3, h⟩ := serOpt_inj serRSAPub_inj h
  cases a; cases b; simp_all

/-! ### Inverses of injective functions -/

open Classical in
/-- The argument satisfying `P` that `f` maps to `b`. -/
noncomputable def inv {α : Type} (P : α → Prop) (f : α → Bytes) (b : Bytes) : Option α :=
  if h : ∃ a, P a ∧ f a = b then some (Classical.choose h) else none

theorem inv_apply {α : Type} {P : α → Prop} {f : α → Bytes}
    (hf : ∀ a b, P a → P b → f a = f b → a = b) {a : α} (h : P a) : inv P f (f a) = some a := by
  have hx : ∃ x, P x ∧ f x = f a := ⟨a, h, rfl⟩
  rw [inv, dif_pos hx]
  have := Classical.choose_spec hx
  rw [hf _ _ this.1 h this.2]

theorem inv_some {α : Type} {P : α → Prop} {f : α → Bytes} {b : Bytes} {a : α}
    (h : inv P f b = some a) : P a ∧ f a = b := by
  unfold inv at h
  split at h
  · rename_i hx
    obtain rfl := Option.some.inj h
    exact Classical.choose_spec hx
  · cases h

/-! ### Certificates -/

/-- A DER sequence with a four-byte length. -/
def der (payload : Bytes) : Bytes := 0x30 :: 0x84 :: (be32 (UInt32.ofNat payload.length) ++ payload)

theorem der_inj {a b : Bytes} (h : der a = der b) : a = b := by
  simp only [der, List.cons.injEq, true_and] at h
  exact (List.append_inj h (by simp)).2

theorem derSequence_der (p rest : Bytes) (h : p.length < 4294967296) :
    derSequence (der p ++ rest) = some (der p, rest) := by
  have hb : Spec.Cbor.beNat (be32 (UInt32.ofNat p.length)) = p.length := by
    simp [Spec.Cbor.beNat, be32, UInt8.toNat_ofNat', UInt32.toNat_ofNat']; omega
  have e : (0x84 : UInt8).toNat - 128 = 4 := by decide
  have hn : ¬ (0x84 : UInt8).toNat < 128 := by decide
  have t4 : (be32 (UInt32.ofNat p.length) ++ (p ++ rest)).take 4 = be32 (UInt32.ofNat p.length) :=
    List.take_left' (by simp)
  have t : (be32 (UInt32.ofNat p.length) ++ (p ++ rest)).take (4 + p.length) =
      be32 (UInt32.ofNat p.length) ++ p := by
    rw [← List.append_assoc]; exact List.take_left' (by simp)
  have d : (be32 (UInt32.ofNat p.length) ++ (p ++ rest)).drop (4 + p.length) = rest := by
    rw [← List.append_assoc]; exact List.drop_left' (by simp)
  simp only [der, List.cons_append, List.append_assoc, derSequence, hn, if_false, e, t4, hb, t, d]
  simp

def Fits (k : PubKey) : Prop := (serPub k).length < 2147483647

theorem ser_length : ∀ b : Bytes, (ser b).length = 2 * b.length + 1
  | [] => rfl
  | _ :: l => by simp [ser, ser_length l]; omega

theorem fits_ec (k : ECPub) (hx : k.x < 2 ^ 256) (hy : k.y < 2 ^ 256) :
    Fits { ecdsa := some k } := by
  have e : (256 : Nat) ^ 32 = 2 ^ 256 := by decide +kernel
  have := BigInt.toBytes_length_le 32 k.x (by omega)
  have := BigInt.toBytes_length_le 32 k.y (by omega)
  simp [Fits, serPub, serOpt, serList, serECPub, serBool, serNat, ser_length]
  omega

/-- What kind of certificate: of an authority, of something attested under an authority, or of something else. -/
def kindTag : Option Bool → Bytes
  | none => []
  | some false => [0]
  | some true => [1]

/-- A certificate: the key, the key of the issuer, and the kind. -/
def certOf (x : PubKey × PubKey × Option Bool) : Bytes := der (serPub x.1 ++ (serPub x.2.1 ++ kindTag x.2.2))

theorem kindTag_length (k : Option Bool) : (kindTag k).length ≤ 1 := by
  rcases k with _ | _ | _ <;> decide

theorem certOf_inj (a b : PubKey × PubKey × Option Bool) (h : certOf a = certOf b) : a = b := by
  obtain ⟨h1, h⟩ := serPub_inj (der_inj h)
  obtain ⟨h2, h3⟩ := serPub_inj h
  obtain ⟨a1, a2, a3⟩ := a
  obtain ⟨b1, b2, b3⟩ := b
  rcases a3 with _ | _ | _ <;> rcases b3 with _ | _ | _ <;> simp_all [kindTag]

/-- The fields of the certificates: time stands still. -/
def leafFields : CertTemplate :=
  { serial := 0
    subject := { organization := [ascii "Self-Signed Virtual FIDO"], country := [ascii "US"]
                 commonName := ascii "Self-Signed Virtual FIDO", unit := [ascii "Authenticator Attestation"] }
    notBefore := 0, notAfter := 10
    isCA := false, signs := true, signsCerts := false, clientAuth := true, serverAuth := true }
def caFields : CertTemplate :=
  { serial := 0
    subject := { organization := [ascii "Self-Signed Virtual FIDO"], country := [ascii "US"], commonName := [], unit := [] }
    notBefore := 0, notAfter := 10
    isCA := true, signs := true, signsCerts := true, clientAuth := true, serverAuth := true }

def kindInfo : Option Bool → CertInfo
  | none => ⟨leafFields, leafFields.subject⟩
  | some false => ⟨caFields, caFields.subject⟩
  | some true => ⟨leafFields, caFields.subject⟩

/-- The keys of a certificate are not too long. -/
def CertFits (x : PubKey × PubKey × Option Bool) : Prop := Fits x.1 ∧ Fits x.2.1

noncomputable def certInv : Bytes → Option (PubKey × PubKey × Option Bool) := inv CertFits certOf

theorem certInv_certOf {x : PubKey × PubKey × Option Bool} (h : CertFits x) : certInv (certOf x) = some x :=
  inv_apply (fun a b _ _ e => certOf_inj a b e) h

/-- The kind of a certificate made with a template under another. -/
noncomputable def kindOf (t : CertTemplate) (parent : Option Bytes) : Option Bool :=
  if t.isCA then some false
  else match parent.bind certInv with
    | some (_, _, some false) => some true
    | _ => none

/-! ### The environment -/

def shaped (n : Nat) (b : Bytes) : Bytes := (b ++ List.replicate n 0).take n

theorem shaped_length (n : Nat) (b : Bytes) : (shaped n b).length = n := by
  simp [shaped]

def point (d : Nat) : Nat × Nat := (d % 2 ^ 256, d % 2 ^ 256)

def scalar (i : Nat) : Nat := i % (p256Order - 1) + 1

theorem scalar_range (i : Nat) : 0 < scalar i ∧ scalar i < p256Order := by
  have : 1 < p256Order := by decide +kernel
  have := Nat.mod_lt i (show 0 < p256Order - 1 by omega)
  unfold scalar; omega

theorem order_lt : p256Order < 2 ^ 256 := by decide +kernel

def ECOk (k : ECPriv) : Prop :=
  k.pub.p256 = true ∧ 0 < k.d ∧ k.d < p256Order ∧ (k.pub.x, k.pub.y) = point k.d

def intOf : Cbor → Int
  | .uint n => n
  | .nint n => -1 - n
  | _ => 0

theorem intOf_int (i : Int) : intOf (.int i) = i := by
  cases i with
  | ofNat n => rfl
  | negSucc n => simp only [Cbor.int, intOf]; omega

def header (b : Bytes) : Option (Int × Int) :=
  match Spec.Cbor.decode b with
  | some (.map ((_, kty) :: (_, alg) :: _)) => some (intOf kty, intOf alg)
  | _ => none

def EC2Ok (k : EC2Key) : Prop :=
  Int8Range k.kty ∧ Int8Range k.alg ∧ Int8Range k.crv ∧ (∀ x ∈ k.x, Short x) ∧
    (∀ y ∈ k.y, Short y) ∧ Short k.d
def OKPOk (k : OKPKey) : Prop :=
  Int8Range k.kty ∧ Int8Range k.alg ∧ Int8Range k.crv ∧ (∀ x ∈ k.x, Short x) ∧ Short k.d
def RSAOk (k : RSAKey) : Prop :=
  Int8Range k.kty ∧ Int8Range k.alg ∧ (∀ x ∈ k.n, Short x) ∧ (∀ x ∈ k.e, Short x) ∧ Short k.d ∧
    Short k.p ∧ Short k.q ∧ Short k.dp ∧ Short k.dq ∧ Short k.qinv
def BoxOk (b : Box) : Prop := Short b.data ∧ Short b.iv
def HandleOk (k : KeyHandle) : Prop := (∀ x ∈ k.privateKey, Short x) ∧ Short k.applicationID

open Classical in
noncomputable def toy (approve : List Ask → Action → Bytes → Bytes → Bool) : Env where
  rand i n := List.replicate n (UInt8.ofNat i)
  ecPublic := point
  genEC i := { pub := { p256 := true, x := (point (scalar i)).1, y := (point (scalar i)).2 },
               d := scalar i }
  genECDH i := { priv := BigInt.toBytes (scalar i), x := (point (scalar i)).1,
                 y := (point (scalar i)).2 }
  sha256 := shaped 32
  hmac k b := shaped 32 (k ++ b)
  cbcEncrypt _ d := d
  cbcDecrypt _ d := d
  gcmSeal k _ d := d ++ shaped 16 k
  gcmOpen k _ d :=
    if 16 ≤ d.length ∧ d.drop (d.length - 16) = shaped 16 k then some (d.take (d.length - 16))
    else none
  scrypt p _ := shaped 32 p
  signEC _ h _ := some (h.take 32)
  verifyEC _ h s := s == h.take 32
  edPublic := shaped 32
  signEd _ d := d
  verifyEd _ d s := s == d
  signRSA _ h _ := some h
  verifyRSA _ h s := s == h
  rsaQinv p q := q % p
  ecdh priv x _ := some (BigInt.ofBytes priv * x % 2 ^ 256)
  parseECDER := inv ECOk ecToDER
  now _ := 0
  addYears t n := t + n
  createCert t p sub issuer _ :=
    match Cose.publicOf issuer with
    | .ok pub => if CertFits (sub, pub, kindOf t p) then some (certOf (sub, pub, kindOf t p)) else none
    | .panic _ => none
  parseCert c := (certInv c).isSome
  certSubject c := (certInv c).map (·.1)
  certInfo c := (certInv c).map fun x => kindInfo x.2.2
  certSignedBy c key := decide ((certInv c).map (·.2.1) = some key)
  renderState s := serState s.norm
  parseState := inv (fun _ => True) serState
  renderBlob := serBlob
  parseBlob := inv (fun _ => True) serBlob
  decodeKeyHeader := header
  decodeEC2Key := inv EC2Ok (fun k => encode (Cose.ec2Item k))
  decodeOKPKey := inv OKPOk (fun k => encode (Cose.okpItem k))
  decodeRSAKey := inv RSAOk (fun k => encode (Cose.rsaItem k))
  decodeBox := inv BoxOk (fun k => encode (U2f.boxItem k))
  decodeKeyHandle := inv HandleOk (fun k => encode (U2f.keyHandleItem k))
  decodeMakeCred := inv MakeCredFits (fun a => encode (makeCredItem a))
  decodeGetAssertion := inv GetAssertionFits (fun a => encode (getAssertionItem a))
  decodeClientPIN := inv ClientPINFits (fun a => encode (clientPINItem a))
  approve := approve
  passphrase := [112, 97, 115, 115]

theorem ecToDER_inj (a b : ECPriv) (ha : ECOk a) (hb : ECOk b) (h : ecToDER a = ecToDER b) :
    a = b := by
  obtain ⟨p1, l1, u1, e1⟩ := ha
  obtain ⟨p2, l2, u2, e2⟩ := hb
  have o := order_lt
  have la := BigInt.fill32_length a.d (by omega)
  have lb := BigInt.fill32_length b.d (by omega)
  simp only [ecToDER, List.append_assoc, List.cons_append, List.cons.injEq, true_and,
    List.nil_append] at h
  have hd : a.d = b.d := BigInt.fill_inj (List.append_inj h (by omega)).1
  rw [hd, ← e2] at e1
  clear h la lb
  rcases a with ⟨⟨pa, xa, ya⟩, da⟩
  rcases b with ⟨⟨pb, xb, yb⟩, db⟩
  simp only [Prod.mk.injEq] at *
  simp only [p1, p2, hd, e1.1, e1.2]

theorem boxItem_wf (b : Box) (h : BoxOk b) : WF (U2f.boxItem b) := by
  apply wf_map [.int 1, .int 2]
  · decide +kernel
  · simp
  · simp
  · intro e he
    simp only [List.mem_cons, List.not_mem_nil, or_false] at he
    rcases he with rfl | rfl
    · exact ⟨(by dsimp only; apply wf_int8; i8), wf_bytes h.1⟩
    · exact ⟨(by dsimp only; apply wf_int8; i8), wf_bytes h.2⟩

theorem keyHandleItem_wf (k : KeyHandle) (h : HandleOk k) : WF (U2f.keyHandleItem k) := by
  apply wf_map [.int 1, .int 2]
  · decide +kernel
  · simp
  · simp
  · intro e he
    simp only [List.mem_cons, List.not_mem_nil, or_false] at he
    rcases he with rfl | rfl
    · exact ⟨(by dsimp only; apply wf_int8; i8), wf_bytesOrNull h.1⟩
    · exact ⟨(by dsimp only; apply wf_int8; i8), wf_bytes h.2⟩

theorem fits_point {p : ECPub} {d : Nat} (h : (p.x, p.y) = point d) : Fits { ecdsa := some p } := by
  simp only [point, Prod.mk.injEq] at h
  refine fits_ec _ ?_ ?_
  · rw [h.1]; exact Nat.mod_lt _ (by decide)
  · rw [h.2]; exact Nat.mod_lt _ (by decide)

open Classical in
theorem toy_cert {approve : List Ask → Action → Bytes → Bytes → Bool} {t : CertTemplate} {ca : Option Bytes}
    {sub : PubKey} {issuer : PrivKey} {i : Nat} {c : Bytes}
    (h : (toy approve).createCert t ca sub issuer i = some c) :
    ∃ pub, CertFits (sub, pub, kindOf t ca) ∧ Cose.publicOf issuer = .ok pub ∧
      certOf (sub, pub, kindOf t ca) = c := by
  have h : (match Cose.publicOf issuer with
    | .ok pub => if CertFits (sub, pub, kindOf t ca) then some (certOf (sub, pub, kindOf t ca)) else none
    | .panic _ => none) = some c := h
  split at h
  · rename_i pub hp
    split at h
    · rename_i hf
      exact ⟨pub, hf, hp, Option.some.inj h⟩
    · cases h
  · cases h

theorem toy_laws (approve : List Ask → Action → Bytes → Bytes → Bool) : Laws (toy approve) where
  rand_length := by simp [toy]
  sha256_length := fun b => shaped_length 32 b
  hmac_length := fun k b => shaped_length 32 (k ++ b)
  cbc_length := by simp [toy]
  cbc_decrypt := by simp [toy]
  gcm_length := by simp [toy, shaped_length]
  gcm_open := by
    intro k n d _ _
    have e : (d ++ shaped 16 k).length - 16 = d.length := by simp [shaped_length]
    simp only [toy, e]
    rw [if_pos]
    · simp
    · simp [shaped_length]
  gcm_short := by
    intro k n d h
    simp only [toy]
    rw [if_neg (by omega)]
  scrypt_length := fun p _ => shaped_length 32 p
  ecPublic_lt := fun d => by
    simp only [toy, point]
    exact ⟨Nat.mod_lt _ (by decide), Nat.mod_lt _ (by decide)⟩
  genEC_valid := fun i => ⟨rfl, (scalar_range i).1, (scalar_range i).2, rfl⟩
  genECDH_valid := fun i => ⟨scalar i, (scalar_range i).1, (scalar_range i).2,
    BigInt.ofBytes_toBytes _, rfl⟩
  signEC_verifies := fun k h i _ => ⟨_, rfl, by simp [toy]⟩
  edPublic_length := fun s => shaped_length 32 s
  signEd_verifies := by simp [toy]
  signRSA_verifies := fun k h i _ => ⟨_, rfl, by simp [toy]⟩
  rsaQinv_lt := fun p q h => Nat.mod_lt _ (by omega)
  ecdh_agrees := by
    rintro a b ⟨da, a1, a2, a3, a4⟩ ⟨db, b1, b2, b3, b4⟩
    have o := order_lt
    simp only [toy, point, Prod.mk.injEq] at a4 b4
    refine ⟨_, Nat.mod_lt _ (by decide), rfl, ?_⟩
    simp only [toy, a3, b3, a4.1, b4.1]
    rw [Nat.mod_eq_of_lt (by omega : da < 2 ^ 256), Nat.mod_eq_of_lt (by omega : db < 2 ^ 256),
      Nat.mul_comm]
  parseECDER_toDER := fun k h => inv_apply ecToDER_inj h
  createCert_sound := by
    intro t ca sub issuer i c h
    obtain ⟨pub, hf, -, rfl⟩ := toy_cert h
    have hi := certInv_certOf hf
    have hl : (serPub sub ++ (serPub pub ++ kindTag (kindOf t ca))).length < 4294967296 := by
      have h1 : (serPub sub).length < 2147483647 := hf.1
      have h2 : (serPub pub).length < 2147483647 := hf.2
      have := kindTag_length (kindOf t ca)
      rw [List.length_append, List.length_append]; omega
    refine ⟨?_, ?_, ?_, ?_⟩
    · simp only [toy, hi]; rfl
    · simp only [toy, hi]; rfl
    · exact fun rest => derSequence_der _ rest hl
    · unfold Short certOf
      simp [der] at hl ⊢; omega
  createCert_signed := by
    intro t ca sub issuer issuerPub i c h _ hp
    obtain ⟨pub, hf, hp', rfl⟩ := toy_cert h
    obtain rfl := Res.ok.inj (hp'.symm.trans hp)
    simp only [toy, certInv_certOf hf, Option.map_some, decide_true]
  createCert_ok := by
    rintro ca sub issuer i - ⟨-, -, -, h4⟩ ⟨-, -, -, h5⟩ -
    exact ⟨_, if_pos ⟨fits_point h4, fits_point h5⟩⟩
  createCA_ok := by
    rintro k i ⟨-, -, -, h4⟩
    exact ⟨_, if_pos ⟨fits_point h4, fits_point h4⟩⟩
  createCert_info := by
    intro ca sub issuer i c h
    obtain ⟨pub, hf, -, rfl⟩ := toy_cert h
    refine ⟨(kindInfo (kindOf (Cose.attestationTemplate (toy approve) i) (some ca))).issuer, ?_, ?_⟩
    · have : (kindInfo (kindOf (Cose.attestationTemplate (toy approve) i) (some ca))).fields =
          Cose.attestationTemplate (toy approve) i := by
        unfold kindOf
        rw [if_neg (by simp [Cose.attestationTemplate])]
        split <;> rfl
      refine (congrArg (Option.map fun x : PubKey × PubKey × Option Bool => kindInfo x.2.2)
        (certInv_certOf hf)).trans ?_
      exact congrArg (fun t => some (CertInfo.mk t _)) this
    · intro q hq
      have hq' : (certInv ca).map (fun x => kindInfo x.2.2) = some q := hq
      unfold kindOf
      rw [if_neg (by simp [Cose.attestationTemplate])]
      show (kindInfo (match certInv ca with | some (_, _, some false) => some true | _ => none)).issuer = _
      cases hc : certInv ca with
      | none => rw [hc] at hq'; exact nomatch hq'
      | some x =>
        rw [hc] at hq'
        obtain rfl := Option.some.inj hq'
        obtain ⟨x1, x2, x3⟩ := x
        rcases x3 with _ | _ | _ <;> rfl
  createCA_info := by
    intro sub issuer i c h
    obtain ⟨pub, hf, -, rfl⟩ := toy_cert h
    show ((certInv _).map _) = _
    rw [certInv_certOf hf]
    rfl
  addYears_later := fun t n h => Nat.lt_add_of_pos_right h
  sig_short := by
    intro k h i s e
    obtain rfl := Option.some.inj e
    simp; omega
  json_state := fun s _ => inv_apply (fun a b _ _ e => serState_inj e) trivial
  json_blob := fun s => inv_apply (fun a b _ _ e => serBlob_inj e) trivial
  json_prefix := by
    intro b n hn
    cases h : (toy approve).parseBlob (((toy approve).renderBlob b).take n) with
    | none => rfl
    | some b' =>
      have e := inv_some h
      have e' : serBlob b' ++ (serBlob b).drop n = serBlob b ++ [] := by
        rw [e.2, List.append_nil]; exact List.take_append_drop n _
      have := congrArg List.length (serBlob_inj' e').2
      have hn : n < (serBlob b).length := hn
      simp at this
      omega
  decode_ec2 := by
    intro k h1 h2 h3 h4 h5 h6
    have ok : EC2Ok k := ⟨h1, h2, h3, h4, h5, h6⟩
    have wf : ∀ k, EC2Ok k → WF (Cose.ec2Item k) := fun k ⟨h1, h2, h3, h4, h5, h6⟩ =>
      ec2Item_wf k h1 h2 h3 h4 h5 h6
    constructor
    · exact inv_apply (f := fun k => encode (Cose.ec2Item k))
        (fun a b ha hb e => Items.coseEC2_inj (encode_inj (wf a ha) (wf b hb) e)) ok
    · simp only [toy, header, decode_encode _ (wf k ok)]
      simp [Cose.ec2Item, intOf_int]
  decode_okp := by
    intro k h1 h2 h3 h4 h6
    have ok : OKPOk k := ⟨h1, h2, h3, h4, h6⟩
    have wf : ∀ k, OKPOk k → WF (Cose.okpItem k) := fun k ⟨h1, h2, h3, h4, h6⟩ =>
      okpItem_wf k h1 h2 h3 h4 h6
    constructor
    · exact inv_apply (f := fun k => encode (Cose.okpItem k))
        (fun a b ha hb e => Items.coseOKP_inj (encode_inj (wf a ha) (wf b hb) e)) ok
    · simp only [toy, header, decode_encode _ (wf k ok)]
      simp [Cose.okpItem, intOf_int]
  decode_rsa := by
    intro k h1 h2 h3 h4 h5 h6 h7 h8 h9 h10
    have ok : RSAOk k := ⟨h1, h2, h3, h4, h5, h6, h7, h8, h9, h10⟩
    have wf : ∀ k, RSAOk k → WF (Cose.rsaItem k) := fun k ⟨h1, h2, h3, h4, h5, h6, h7, h8, h9, h10⟩ =>
      rsaItem_wf k h1 h2 h3 h4 h5 h6 h7 h8 h9 h10
    constructor
    · exact inv_apply (f := fun k => encode (Cose.rsaItem k))
        (fun a b ha hb e => Items.coseRSA_inj (encode_inj (wf a ha) (wf b hb) e)) ok
    · simp only [toy, header, decode_encode _ (wf k ok)]
      simp [Cose.rsaItem, intOf_int]
  decode_box := fun b h1 h2 => inv_apply (f := fun k => encode (U2f.boxItem k))
    (fun a b ha hb e => by
      have := encode_inj (boxItem_wf a ha) (boxItem_wf b hb) e
      cases a; cases b; simp_all [U2f.boxItem]) (show BoxOk b from ⟨h1, h2⟩)
  decode_keyHandle := fun b h1 h2 => inv_apply (f := fun k => encode (U2f.keyHandleItem k))
    (fun a b ha hb e => by
      have := encode_inj (keyHandleItem_wf a ha) (keyHandleItem_wf b hb) e
      cases a; cases b
      simp only [U2f.keyHandleItem, Cbor.map.injEq, List.cons.injEq, Prod.mk.injEq, true_and,
        Cbor.bytes.injEq, and_true] at this
      simp [Items.bytesOrNull_inj this.1, this.2]) (show HandleOk b from ⟨h1, h2⟩)
  decode_clientPIN := fun a h => inv_apply (f := fun a => encode (clientPINItem a))
    (fun a b ha hb e =>
      Items.clientPIN_inj (encode_inj (Items.clientPIN_wf a ha) (Items.clientPIN_wf b hb) e)) h
  decode_makeCred := fun a h => inv_apply (f := fun a => encode (makeCredItem a))
    (fun a b ha hb e =>
      Items.makeCred_inj (encode_inj (Items.makeCred_wf a ha) (Items.makeCred_wf b hb) e)) h
  decode_getAssertion := fun a h => inv_apply (f := fun a => encode (getAssertionItem a))
    (fun a b ha hb e => Items.getAssertion_inj
      (encode_inj (Items.getAssertion_wf a ha) (Items.getAssertion_wf b hb) e)) h
  makeCred_utf8 := by
    intro b a h
    obtain ⟨-, h2, h3, -⟩ := (inv_some h).1
    exact ⟨fun rp hr => ⟨(h2 rp hr).1.1, (h2 rp hr).2.1⟩,
      fun u hu => ⟨(h3 u hu).2.2.1, (h3 u hu).2.1.1⟩⟩

end VF.Toy
