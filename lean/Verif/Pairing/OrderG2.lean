import Verif.Pairing.SpecLemmas

/-!
# The generator of BN254 `G2` is an element of the second group of the pairing

Order and Frobenius eigenvalue: double-and-add chains with the slopes given as certificates, evaluated by the kernel, as in
`Ecc/Order.lean`, with coordinates in `Fq2`.
-/

set_option autoImplicit false
namespace H2

/-- Computation in `Fq2` with pairs of naturals. -/
def q2mul (a b : ℕ × ℕ) : ℕ × ℕ :=
  ((a.1 * b.1 + (bn254Q - a.2 * b.2 % bn254Q)) % bn254Q, (a.1 * b.2 + a.2 * b.1) % bn254Q)
def q2add (a b : ℕ × ℕ) : ℕ × ℕ := ((a.1 + b.1) % bn254Q, (a.2 + b.2) % bn254Q)
def q2sub (a b : ℕ × ℕ) : ℕ × ℕ := ((a.1 + (bn254Q - b.1 % bn254Q)) % bn254Q, (a.2 + (bn254Q - b.2 % bn254Q)) % bn254Q)

/-- The element of `Fq2`. -/
def q2 (a : ℕ × ℕ) : Fq2 := ⟨(a.1 : ZMod bn254Q), (a.2 : ZMod bn254Q)⟩

theorem cast_qsub (n : ℕ) : ((bn254Q - n % bn254Q : ℕ) : ZMod bn254Q) = -(n : ZMod bn254Q) := by
  rw [cast_sub' (Nat.mod_lt _ (by decide +kernel)).le, ZMod.natCast_mod]

theorem q2_mul (a b : ℕ × ℕ) : q2 (q2mul a b) = q2 a * q2 b := by
  unfold q2 q2mul
  have h := cast_qsub (a.2 * b.2)
  generalize bn254Q - a.2 * b.2 % bn254Q = t at h ⊢
  ext
  · simp only [ZMod.natCast_mod, QuadraticAlgebra.re_mul]
    push_cast at h ⊢
    rw [h]; ring
  · simp only [ZMod.natCast_mod, QuadraticAlgebra.im_mul]
    push_cast
    ring

theorem q2_add (a b : ℕ × ℕ) : q2 (q2add a b) = q2 a + q2 b := by
  unfold q2 q2add
  ext <;> simp [ZMod.natCast_mod]

theorem q2_sub (a b : ℕ × ℕ) : q2 (q2sub a b) = q2 a - q2 b := by
  unfold q2 q2sub
  have h1 := cast_qsub b.1
  have h2 := cast_qsub b.2
  generalize bn254Q - b.1 % bn254Q = t1 at h1 ⊢
  generalize bn254Q - b.2 % bn254Q = t2 at h2 ⊢
  ext
  · simp only [ZMod.natCast_mod, QuadraticAlgebra.re_sub]
    push_cast
    rw [h1]; ring
  · simp only [ZMod.natCast_mod, QuadraticAlgebra.im_sub]
    push_cast
    rw [h2]; ring

theorem q2_ne {a b : ℕ × ℕ} (h : q2sub a b ≠ (0, 0)) : q2 a ≠ q2 b := by
  intro he
  apply h
  have h0 : q2 (q2sub a b) = 0 := by rw [q2_sub, he, sub_self]
  have hlt : (q2sub a b).1 < bn254Q ∧ (q2sub a b).2 < bn254Q := ⟨Nat.mod_lt _ (by decide +kernel), Nat.mod_lt _ (by decide +kernel)⟩
  have e1 := congrArg QuadraticAlgebra.re h0
  have e2 := congrArg QuadraticAlgebra.im h0
  have e1' := (ZMod.natCast_eq_zero_iff _ _).1 e1
  have e2' := (ZMod.natCast_eq_zero_iff _ _).1 e2
  exact Prod.ext (Nat.eq_zero_of_dvd_of_lt e1' hlt.1) (Nat.eq_zero_of_dvd_of_lt e2' hlt.2)

/-- A step of the chain. -/
def g2Step (G : (ℕ × ℕ) × (ℕ × ℕ)) (st : Bool × (ℕ × ℕ)) (P : (ℕ × ℕ) × (ℕ × ℕ)) : Option ((ℕ × ℕ) × (ℕ × ℕ)) :=
  let l := st.2
  match st.1 with
  | false =>
    let x3 := q2sub (q2mul l l) (q2add P.1 P.1)
    if q2mul l (q2add P.2 P.2) = q2mul (q2add (q2add P.1 P.1) P.1) P.1 then some (x3, q2sub (q2mul l (q2sub P.1 x3)) P.2) else none
  | true =>
    let x3 := q2sub (q2sub (q2mul l l) P.1) G.1
    if q2mul l (q2sub G.1 P.1) = q2sub G.2 P.2 ∧ q2sub P.1 G.1 ≠ (0, 0) then some (x3, q2sub (q2mul l (q2sub P.1 x3)) P.2) else none

/-- The scalar after a step. -/
def g2Scal (k : ℕ) (st : Bool × (ℕ × ℕ)) : ℕ := match st.1 with
  | false => 2 * k
  | true => k + 1

/-- The chain. -/
def g2Chain (G : (ℕ × ℕ) × (ℕ × ℕ)) : List (Bool × (ℕ × ℕ)) → (ℕ × ℕ) × (ℕ × ℕ) → Option ((ℕ × ℕ) × (ℕ × ℕ))
  | [], P => some P
  | st :: sts, P => match g2Step G st P with
    | some P' => g2Chain G sts P'
    | none => none

section
variable {G : (ℕ × ℕ) × (ℕ × ℕ)} {g : G2} (hg : IsPt g2B (q2 G.1) (q2 G.2) g)
include hg

theorem g2Step_spec {st : Bool × (ℕ × ℕ)} {P P' : (ℕ × ℕ) × (ℕ × ℕ)} {k : ℕ} (hP : IsPt g2B (q2 P.1) (q2 P.2) (k • g))
    (h : g2Step G st P = some P') : IsPt g2B (q2 P'.1) (q2 P'.2) (g2Scal k st • g) := by
  obtain ⟨a, l⟩ := st
  cases a with
  | false =>
    simp only [g2Step] at h
    split at h
    · rename_i h1
      simp only [Option.some.injEq] at h
      subst h
      have e1 := congrArg q2 h1
      simp only [q2_mul, q2_add] at e1
      have := hP.double curveOk_g2 (l := q2 l) (by linear_combination e1) rfl rfl
      rw [smul_smul] at this
      refine cast_isPt this ?_ ?_
      · simp only [q2_sub, q2_mul, q2_add]; ring
      · simp only [q2_sub, q2_mul, q2_add]; ring
    · simp at h
  | true =>
    simp only [g2Step] at h
    split at h
    · rename_i h1
      obtain ⟨h1, h0⟩ := h1
      simp only [Option.some.injEq] at h
      subst h
      have e1 := congrArg q2 h1
      simp only [q2_mul, q2_sub] at e1
      have := hP.add hg (q2_ne h0) (l := q2 l) e1 rfl rfl
      rw [← succ_nsmul] at this
      refine cast_isPt this ?_ ?_
      · simp only [q2_sub, q2_mul]
      · simp only [q2_sub, q2_mul]
    · simp at h

theorem g2Chain_spec (sts : List (Bool × (ℕ × ℕ))) : ∀ (P P' : (ℕ × ℕ) × (ℕ × ℕ)) (k : ℕ), IsPt g2B (q2 P.1) (q2 P.2) (k • g) →
    g2Chain G sts P = some P' → IsPt g2B (q2 P'.1) (q2 P'.2) (sts.foldl g2Scal k • g) := by
  induction sts with
  | nil =>
    intro P P' k h1 h2
    simp only [g2Chain, Option.some.injEq] at h2
    subst h2
    exact h1
  | cons st sts ih =>
    intro P P' k h1 h2
    rw [g2Chain] at h2
    split at h2
    · rename_i P'' h3
      exact ih _ _ _ (g2Step_spec hg h1 h3) h2
    · simp at h2

end

/-- The generator of BN254 `G2`. -/
def g2Gen : (ℕ × ℕ) × (ℕ × ℕ) :=
  ((10857046999023057135944570762232829481370756359578518086990519993285655852781,
    11559732032986387107991004021392285783925812861821192530917403151452391805634),
   (8495653923123431417604973247489272438418190587263600148770280649306958101930,
    4082367875863433681332203403145435568316851327593401208105741076214120093531))

/-- The slopes for `r - 1`. -/
def g2CertR : List (Bool × (ℕ × ℕ)) := [
  (false, (0x237db2935c4432bc98005e68cacde68a193b54e64d347301094edcbfa224d3d5, 0x124077e14a7d826a707c3ec1809ae9bafafa05dd6b4ba735fba44e801d415637)),
  (true, (0x6567a7f6972b7bbbfa13123614ecf9c4853249bb5ee22ba52a7ed0c533b7173, 0x899cb1e339f7582c42d7517ae6f59453eaf32c7cf422f26ac76a450359f819e)),
  (false, (0x1e2f561324ef44479ddfd61d289b65a9b4254476fc23a674d089e9cfdefb1db8, 0x94ff1987d19b62ccd852893796296e4d1ed330f67a6a9e31f6975b220642ea)),
  (false, (0x21bd26686de101ccb0d9366e58d0ef693073c35ba67a07e550fecbfc3168e38b, 0x16e9c4f4fa600e3b6c061bf10ca87f272b19ccacf616c4c6123f22beb856fd4c)),
  (false, (0x22472d4a5b460e7860338bdaf819bc6db32347c0d8440fbc695972b95660b076, 0x93b5d8be0f6817f03c15968cc91730a4ec4cb1d7ebcdd4f2a405cdb0696caf3)),
  (false, (0x1e0936182b8f1860f569d45b3f6e9a41af4561a2d98c5e51f60c501e68656fd4, 0x13504fe0ee7ae2a5fe519865420ae26abd7a55db8cdce5c51e6e4bff0e527b45)),
  (false, (0x21c9dfcffedb5c2ca2d3e32fa344df5b9be2aeba89da8bb71dab017e11950457, 0x4193b978a7fad06cb82383cb640eb0cb48afaa5a8d692f4baee39ec66930b6a)),
  (false, (0x1de722ff4ebe811a462d78919fc0af9347db99539f4c8a17943c2d70916a6c05, 0xf94489cba438a99bb8b60e345ffd817bbfdbc349861a949b68ca3d1dbd90056)),
  (true, (0xc22e727a785cdf6ee9de9baadda284929f3f29951e793e9c2704836c83e5827, 0x4dc31651a5e278f98d0e0903d214197cce81bfb5076703d4020344a0b3bf116)),
  (false, (0x17e47a0251a781ab329aaa35f8768aeef4db1f5cb0849012e7e03e4818a21183, 0x284f3eb073508ee084b114909fe45b5814b11dcad5245223f99dbb54612a6cac)),
  (true, (0x294455d30cee934294e4543dcaad73897a4c0e1c3eb9fabda9e2b83115d2f596, 0xe404f3136bd2a89cd81e7ba69ecb76f870bc7c3973bd4abd9ae6ba9249b63bb)),
  (false, (0x1dde233798dc7afaca57d035d7ba535139b40d19675d27709958efffa620481, 0x239ff9efd6130c9e37fcdd5961e7e1bd14b142c69aeafcfdd4c210b63bf214e3)),
  (false, (0xf825fda1e0b6c6591112e9fc81072f113f6099aeb8c995c5a39d6e9071b3315, 0xbb0242a4acdc8b2a32bc47884dcdbd463284021bf35ffcabfdc074db0ac73bc)),
  (false, (0x152f90c3ee2f4be6e0d3d57d5dcc41d4b8302d723b68205222903f142a22d61f, 0x2398a0233f341becdb37755cdaa1b87d3954be770970fa4a9c13e85b6a7e8fca)),
  (true, (0x264d985979a3e1d0e1e46b914482731c18a0caabb01950137d3ba1553de9cd91, 0x2208f20915724d4d6df91d6f7c9032bbc6e2e38bbc79ab3d32ebb30377ef6411)),
  (false, (0x2894b882680624a5fc7b64794507cc1f7f615e3a93205402e79056a0f0fef6f0, 0x1c3916f58d5525f0271daf718d9fcec78bbb999718a45642a77944ef1d3d4803)),
  (false, (0x1b4124d6fefd86217f9af4234be61cb8af2eb1b89e25655c38719cad4f2a2341, 0x2ce5ce19b5841d42e2635a194d0df81c947d263760f6fd6152f1304fb19ed852)),
  (false, (0xb28fb3f5edbdd5c5cf49765c0000a695fa3457863f4b92adbc1ffd91de089d3, 0x193e3b93617eb012edc71ea26b5caf5e710c116a929737181edb7ddd95a5dcd0)),
  (false, (0x265bc696ca35c5d6f46cd097c6677327a6962c90ea4a3c8bd982af3bf4edc5e0, 0x11c2751f5c58000fd381c07195041bedf1f40790729054b686d34a1f1db33f21)),
  (true, (0x22c64245d9f3307c71f2409fe10228d67ef283c181093b129165600ae99e2147, 0x249a6dc882b5bb2495152fddfddb20fc33cd5c259ce81658e52f475d9cf492df)),
  (false, (0x9818016851a447b83896c95a84c774551cf3de9eba8c967554d1ad30d27e227, 0x80599fcc601a9095dc6ae55e906500780cb19389d08115e9c9ed174dc57e667)),
  (false, (0x25150c3bdb56aa6471e779802fabbcb68c6e4257a50a9e593cd62b77ce266c18, 0x1dc9d03f6e81b331afef1c92a353592d5b9910824b0849be0011ef8e276c1a5d)),
  (false, (0x2490f4b0f23fcd70bf6452ff6859c59f23142a3efef9e2a8d4774444a7961a62, 0x15b5e66eba9b2df3a76f72af832377ea372ffc61c7da54c30695a72ebd74ae69)),
  (true, (0x18b62780946b3b1b5ee7249aecb361636e654b0607b33606ebf5ef02a2deb7a, 0x569395098a27fe1c98c735b14849dae19d6d2ba18dcf31b5079179b66ccf698)),
  (false, (0xf7cc11799d8b072cd54051266519ca1fadecfcfb3a80caada2280dff7be6333, 0x2ad34b84cf236603e0cfd86727ac4819dfdb83cd0de9f7d645d73ba0a1600dde)),
  (true, (0x11d2089cbdeb199485715c94ff2cb9e1ceebba1ed351cbf522ed91736631ee97, 0x753b458e341d9654a2f5033685629b11855ef54d3115429bc6511fe350f4ac9)),
  (false, (0x264f6a83958323b3012afba8a75b3b6338a38ec1365810ab2c0ebc40af3cbd2e, 0x2102783005f600211dca8898c27cb7eb5cad455482d17136ece71e31226ccf2)),
  (true, (0xafe982584a6139da6775aeeb8904df6bddc53f6b8b816536456dd58c4547865, 0x28ab83f6d45b8bc827644875621a780e18be89dd9817579786b341aa7e475964)),
  (false, (0x6b4b58f2ab38012eab2e0cc6fec8b3632b807c9db722c968529e368003af6cd, 0x2053af283ba32e7f7a74530fa91d0b0444045ee2e6cc7a3201ca32b2977e92df)),
  (false, (0x14365710109ff118a345da165af18e0317da3fbe2af6a55e8b48645c53d17dc1, 0x28ca0fc38100be6ce54bd0e921755d7f2e5ed557b8d429b2694dcd9ec5dc015e)),
  (false, (0xfd92b66d46356918cad506160a04c23eb61e7f9ff1a36223af86603d393e423, 0xd0b99eb7689a2c5491b556ea3d2f02ccb0c011c304b40779553b259c81c941a)),
  (true, (0x9fea81ba8bfe430322ae0fc55d79d5cb8b0ee001c5eb15472b2eac1b55ef250, 0x28be03549e23d8c04231cfdd730d405a33d2968719d2fe1d24efe824c33be3ce)),
  (false, (0x18a9570ee12794474a1f7249f6a7b20a2e269d14cb733d530d20068ce9836f1a, 0x10d2b6dd48e8d2196cf08fed0272331e43cf652591484c0c0586a1fb068126e0)),
  (true, (0x1705866444ae2e555542062ed363dbf4e37284664c8202840ffdfe74c23dfcbd, 0x2c7459c689b0a6e42706a43af1025dbc50d6f2a7ec47d4c171cc7744dfee97c8)),
  (false, (0xc837881f0b25f47c2347f1f8275ba5a591c440bf57a0600ec4686ace5cfc96f, 0x63cc6593bacb8155919f2e7da6a876ec7d07cf89c16bbbf85594951231ccbb5)),
  (true, (0x1110f6cf6698ca1e0f12e189b77e3324ebfe1ca58c2467426bccefb5325c6b00, 0x10be897059940ff2e5e58dad6b175027a7df924ffe916ec87dfced9be4a14347)),
  (false, (0x1413a17b613ce2d565d3ccc7e2b09e594ab84ecbaa506a1a3d0b196224f06c7b, 0x25d49ff63a83e53bbae1df01780d48c6b23d5f2c756f26eacdb4d0d4e275577c)),
  (false, (0x14a3c531ade9d0a9db6535ad0423361454b0d04cc2a3abb7c9bc1dfbf23f462f, 0x151c23d03a94dc8d3d552eceab1e2cb9e3374dc05aa69f8234ea21d7ca6f1462)),
  (false, (0x1f969f6ef50f49f904100af4183454c39094aee0f9b024fd0838032443b17d81, 0x368e780f5bb195cf7bb5d2b21c2dd52433fc8d993aadf3620e964bf0938ed1e)),
  (true, (0x181604149481c77734b08446e3a9b1049462cb650722edc24ae48a1f43084767, 0x2c56bfd396465973105332bc5c86b7db459c0534e8c895b601b64e07315fab9e)),
  (false, (0x11509e3e35ed524f88a456fdc7603fff586f4f371a90960c24fe14db9e78e2d7, 0x157e8679881d2e1c3b404735ecd17a7fa9cd744c7f3419213b8ae4522369c44d)),
  (false, (0x1b7083b5eea403c7c0469eb327e774195ecb47a0cbe27090e4b5649a0e128c3b, 0x114398d3526b4a31c181b5697e32289fb2001a61fa593bd9f266f227eec71d7e)),
  (true, (0x7597c812f4aef6897dafddffe04c8a6114d720055cbccc978977a8080deee40, 0x23912a4160bfc686d1d85a8ecb9909a0620f7fb91ce985e031cfb4beb46afab0)),
  (false, (0x20377f6895c3a4c832994d5c88971b7e18a10bd6ecd2ad5d8e99d16d8f831989, 0x1f2f9c0d17fb50664997b0faf846139ade7ee2a474e8572251c701c7156a684b)),
  (true, (0x11c808c85088c577f40d380b9e264a95e846e307ad02bcfdb83e8e08c7735035, 0x2277d83d34b57eabad98a64e58b2bd721b8f4eb88739e0e28ee133b3d506547f)),
  (false, (0xfdb33b9cf3a0c9e3d85d65c5c0f21d8f583283522ea3d7ad391ce5ea446c6f4, 0x15bf7ac2203cdbb43705e878d457325337c46647fa9aebea76c186d3797c323e)),
  (true, (0x211c17156c7fa2a8ab3620876466f8a66628776b50a6b58d6f9bc42c593590da, 0x1435ad591d1948bd9e27606fa768edf324261277480e5f00ad99310fc221f0f1)),
  (false, (0x2334538ac78e81c5aabeb6a6ef5fd57e9e27cb3db42d92a70faa5ad695029879, 0x1f89e4d397dd5a223541f3587d47c1f05bf91b981dcc118769b7285cd1fde7d4)),
  (false, (0x26145cb5a8dc14e4576f4b2deec472bd511166635b3c357356ccc2842d29cae5, 0x286ee2a9b2b7dc3146c5f5919bd2897f7397ce5994d74c5790e34f07d526a1e9)),
  (false, (0xb81ae818e989d77b2d2b797ebc383359e475255dbaf35e85023d1ca7a0df5fa, 0x10b8884e4ccc29845d3e4bf75ce7e98d7e0931127682c9d8eebf5d1fa4f908)),
  (false, (0x1efa05544c97d3fd446fe31296e0e3e1ed8a7c6283eb9cd0ca51907baf8b9161, 0xd811ec2b1a706a27130a1abe0a603c6aa1dd520ac6d27f7e1de77c625679b40)),
  (false, (0x2610458834a7fa5326360ff7282e70626d8747dff10e491b3b4741fb7e0aa0, 0x8b8298c2f63045ef5ed12952020592e18b5b2b519f008a0fbeba02d8d4eaa92)),
  (true, (0x72a45da5f9232fe2f4d831ccc2f3c68c517f4a9789fdf8ee60ade8a6a4be598, 0x45b8bfab7b872e92a3f7bdab6afd64a77cb039b44ac0f8369dc01e15cd26fc8)),
  (false, (0x75091302d7bd3a470556b8088a0572df74e53c886a490bf72b73ed329f82cfe, 0x28e8dfb9ea5451b2ac951b76cb03f593bcfc857582679a1cbae09442d5c093cf)),
  (false, (0x9a9e4c7045b5aec216ca5a9b0c6b367ea4f2d514bb3049d2a7696afd71cc4a, 0x12c6f047957acd06ff16b27f22299070f731cf0a565dc94f627efb8c2c2bf4a8)),
  (false, (0x2761beb7b933fdeaf0cd97465851cf0cabb5805b8a3313e5f0849c38f14af7b4, 0x26e798e16d477c3ee66f067ac7b0b49d2dca95023a9f1194ff288ea9b051c057)),
  (true, (0x2df42b378da4e9ea5ac9f7f448054e7dadc6cdd5bf2e21ff99d1dba769e9d47b, 0x13dca13e097d9bd8d2073efe70b4b70fa606ad67cbc31b27330c0679e23f9159)),
  (false, (0x27d0f70d864e43d17f59202ec424ec56fa3d4330295797dfcffdd9091138d188, 0x135359762ef150886450aac229ca1c438a53637c878185284837a86aabc439a0)),
  (true, (0x1057b87aa2b08d4f31677ccba459c2f5a3cfab80ca91117fe365793e05f3d160, 0x17931b0af0bc4aa572722262a543ab8602e058e8e7c77cba4b14c67d73e3b75b)),
  (false, (0xdb09ab65d226cee6b890e3b2e20e4dc05488c2dc35f196d9c5cf7276f40cb8, 0x9abc82bad38583b5a398c74212b286799bc881a3590a19770ef759c28c90086)),
  (false, (0xc84fa33f4f2e2b393114b6b45714f41c87717682bead2e5addfad524355b85e, 0x26f1125b9651e04411a0561159dfd533fc9c14f9485f0556dd98b256fe0a219c)),
  (false, (0x5a3827a58ab1fe5b677c82a10d26741b12f9d25f1a92085e6c498a300d54206, 0xfaa2bfc8104703c71af65aa8a8eeee38d26f41b3bc6c561e37a4ff90dae679e)),
  (false, (0x11870d7148c8d18b6c46005a77158d78df03daca064ddf1f19510e4b6ab763b3, 0x1adf4446ad6964a95991d94d6369e553664d4ef9b65ccfa6aed2d57041f2dab9)),
  (true, (0x164ad6eba4035be1c76b794419c7b5242d6a855a6491ec30d719b25b697edd6, 0x298f6a5e7323b40721e4100347be625a0d7137a6b21ad80e7f40adc513676e29)),
  (false, (0x2b68235b03cbc6c99f224ab6265591f276f6db4f7e90ca194b2854f8d6b2ae7e, 0x272364d115e24efee2ca3efc34a4a04526db7f4155ee703864d9f2cabad75f07)),
  (true, (0x169763b05dfb77220bda62891e8dab5f0ee4579bf4ad459527e1f7e19d087fc3, 0x1654238830fb6969bc6c5d86e28cb9ce0a7a8bca5f5932466ef6b120a2a9e20c)),
  (false, (0x1ae0758fbe7de760c7bb2ae5aa60efd3ff5617d9bf899e6ea72580d1c760d63, 0x1916dceb42856a2145b05101eced0027757d509cb19b745091124b28cebedd91)),
  (false, (0x28c3c8aa175ca0e3c6064fb1ada1527c64a8f0c271d063b4324603dadbc087c0, 0x1e1eea4104a852daba7a7be4618d9105a97a3fd018658cec18819f5c4755895c)),
  (true, (0x103ab0e49963fb9fea6a38f4600ce4612386b3ce21dcf5862e14fbcae2b2a1b1, 0x1ea8eaa1045962c2e42e545e1b5a7779db88985f6c148345883c4dcc8eaa5f19)),
  (false, (0x239ed1cf5672185e1b9867348766011850e682ab9467312d1e459b0c0877cf24, 0x1bd1f0fc2455827ca21f1d5c36524e9b18fdfd2af25ca640084cb8ddc4952f34)),
  (false, (0x21d4d102072113958dd07de91b9b83f6f538152e8bf3272f2e8f5116b34c7fc5, 0x18fdff8f86fa99af24768f018ffdc99948369a8e4072b995c5d73017715e4410)),
  (false, (0x1807e619e89b4b2711226b1eca9a88fd776b687bd384cbe312fcbf62ae54578a, 0x17243c8443e34ca216d1250339cd31abbb4868427038ab5a70d93bbb6460000f)),
  (false, (0x74f264232d74475405f920372626006587acc3e4a34a149a8980e31ce5048ce, 0x9eade0a4850f64b30982c5738592485e2d59612eff553c9a36c9d456b09a6c4)),
  (false, (0x1f322762872648ca6b014ea2ade9e889a3675fecf79f98278fefccd96c9b1524, 0x12f736ab9c09790888ec35ef1ad24c1a22fe6238d4ad9f296cb4fab77f7619fd)),
  (false, (0x1c17d995e07137dc25523da3a4a27cfb3267a069f04ab8af2ee83965072d740b, 0x47e100855919cfc2f1d044d7e87b69ae4b3536e717821511a06f42b8435809c)),
  (false, (0x1d9242a6ed2d359a7552a2669aa7ae36bc78ba1aa467119506a5f1644b37ff80, 0x1538577c2a0adaa73a1b8130a15acb401c1f25401524927e8d862d709fc6692a)),
  (false, (0x228cd5af7b3f78433b62bf0e1737c9c9af6a3d7f83dc1df81bb6dba31830c2c9, 0x57c5ac0e4afb0809219c813d8a49ef21246865a737603852698400b19b324ff)),
  (true, (0x6124d94de33ae0a9eeaf4b38810e4b21a5e2311f0187fe258d37896e02bb44, 0x1d71e8218805cdd086463297804314e59219922bc6b199aadad17e31d97bab52)),
  (false, (0x302bc6257843535367aef609431a26a1177c688582c72cae91c6f4f76aeb3de4, 0xacd1a079ac741ba73c4783905e8f21f2bc25c052081c71403d169c571159b9d)),
  (false, (0xe012cf3376a21e53e6aeb944130a6c47c2ab30a79e00a890b8435b2babd7f2c, 0x2fed80a698d1b965061012c8b213d6cc6077f08145507ade37758df7229d5ea3)),
  (true, (0x2b19924b7c42b921eff8b47a8b29a7b955503859b724b74ed76b1ad713001f97, 0x200f8caa7f1646c2b4a21f3d60267b858fb53bb3b9f13cf127760752b3e84fa5)),
  (false, (0x2c95f24e9c07e3cc9656fcf704dd44e48e8b84e8e4447db29698a8804556fab8, 0x42c47c7841cfa92cb431764e558f39719cf70cdcf10c6158b603f48c169bb61)),
  (false, (0xc976fc20ada37d3f717b25f0ffb3049d547d773c5756c2fe9bbeee19a8e981c, 0x773ac353505f75856f86719ae255a9f3aeb6eea38fd1b10386ad56507d3c56d)),
  (false, (0x22cbf96a9316bee475b2dcbddf18da442daa89ef57d4f3549e84f38dbd16f392, 0x252a0f3235c39697dfb669b0956a4f36a63b8b8b9eb79e0be64f2b5b21f5900e)),
  (true, (0x1affe293492f67d809aea2dd39d0a8a685cd202cb8be205860eec3d43eeb2591, 0x2a0aa8a7441f5e5e8d9805118227607d9a56156c93c004688a19e33ec2c228ba)),
  (false, (0x704d735dce1c270433960642a5d843cc03eab443d96f4caa4ad5dfc89ae18de, 0x1c5cac8ac26d88c45b5c2294194cdf699f930a38f1fef579c8fb743786b94fa5)),
  (true, (0xc6fa2a05676abcafa438794bed540a6b35072817383e3df3779ebd65282225e, 0x1ef3ccf96f06e66f8d3d75c5bd889097740d7a73f338de932ceb44ecb10a1a9c)),
  (false, (0x196eb3824c9c15eb6542500fde2041103b8cf559664e3df03cef4a3129827f53, 0x26f60e40813b061cfd36423832545790995ec4c80b26f3e9824bdddc7c163f0d)),
  (false, (0x25b1255edf6a8e152b9690261e29e3809be6af6567f5e4687d14d597d2c3e67b, 0x699b415b299a6f622da732608ec093026286c94ddcd0660042dcbb649b63adc)),
  (true, (0x3028abe728020b709b87386f1c57cc5f6aa0dfec5f94924d05c6c8eba3d598b1, 0x8d3c0921482bffae3f4aacb9e6561a4f2669f225b8f6f4be8163a085bc69f)),
  (false, (0x569a5aac0b923c166da666b43ed099c38fc0fb06dfe9cd7e2b85e44ff035d49, 0x2398cd3f8fe0e8ce171185679f5144bec6dab4a94f5d0430a169397ff50582f7)),
  (true, (0x2a20a52039e411e91532ccdff5cf50d0e3092bbbe57c2d764b7ba3e25b930aac, 0x265f9319b17fce5f94fad49655808ca31c8ae5b3904a271e6d74b9e238ec105a)),
  (false, (0x213dc4a06959a72d513582e2f6c1f5b0549277d3ad7ab29d292b7b9ddd426804, 0x2c21b30eaf7b6fd245cf4daf6c12ddf34be0140d31b9b9f85d0e9163833712c4)),
  (true, (0x3e5efddb5b1c2680c9854b4c2ecefe31dce6832fbc6f3463899c0523c3daa5d, 0x69daa180e875cb8c7a68e036e73c923a7adc8645b29f55d85ce5c9aaf232b4f)),
  (false, (0x1ece6e9ef9655f05995e3776c547dde7094f68ed8c466481a02e5653acca98d5, 0x2f7294aacca5d1bd0e647a70edd9c217ffcc149ece943ab3f5e6c4c58407dc95)),
  (false, (0x2556004fdb6d72d24b428e6240267abfa03dd9bbeadcf65cb80f267825dad363, 0x166c7ff2cf06d61f0ff44b9a0ee96e9deb9c77e7deec841a499c2971aef8b754)),
  (false, (0x71940faf53f7528fca5c067ae261f65bc6de2722fb03edcf3bf2d6f7951f7f8, 0x16ccf4edb9ab84126051efc9efeba4161f5d4b02118902be52e3d5f01dc13d2)),
  (false, (0x270249ed8a936f3b3bb8efaf1c5fbc411f0bfe26ca3a631a003114bfa5704235, 0x21da34e6154930c1d9f28434c632a078a0ac7d5aa6a97193209693b2f10ed654)),
  (false, (0x1796979a4e08033e9134ef8776e8f47a1918c6cfe1aea2e8e686ce5d8b3ab94e, 0x1870709382ead407a432b2b429cef210efeab14f5c643272f30c843fc3be969d)),
  (true, (0x1bb9a84b3470fab6345f0e300ab6150dde0938711266ef035c246eabcba8cb4b, 0x1dfe7a0d104c506c3ba7498ecd9bde36db81824300c660a1c7ffd049e1a74eb1)),
  (false, (0x286b710345cb5bc8112bb26f69bc9f4a67072a9590c861bdf3837553c1e87cd0, 0x141d5ab7292c3c91f16281e95e30769c232f3c79ec1f8cd48aedcedbc7d6fbd6)),
  (false, (0x1e2ac62395fd525e3aeebaa40555fe642595b423bfa4c2675d96f20062a772ba, 0x9c631e15e4006994ddcdfb3ce6f0ceb23eee9bd73a70cf2a861ae8b24be8c45)),
  (true, (0x3037e763d084a854904aed13d269c367ae6ba94cac6c50982061f62034954bc3, 0x22a9bf7f1c1b215a1c928009c8ecb949f9a6a52769ab88a7caf66f1a448cb77a)),
  (false, (0x2d4c2bd6bef960182e6999fd25f34a4a69cd8ace918260d1e4c1947024f0cdb9, 0x1bfd38d03efdb13a8636e8c34ee4dace39723eee4a03e4704a39c503f0945f81)),
  (false, (0x2214eb237a651c6bbe94765f91e9fccdb203cd681442ee35f989ef84050cc2e5, 0xf72803bb6c50f11689f11c62487d4c725a90d3dee5eccbba1ecb71f5a0ad6d2)),
  (false, (0x24d78215a53caf50bb5d9858bfb2846e94f0c06ea13819cb30399073f815f164, 0x40dab8ac37696fe60da4c4f42447d62d9cc416498d6767406a28c19fd03f58b)),
  (false, (0x24a718820a4916831a557fb26c11ca125c28fc98ebc06a13a7be65e6f71094f6, 0x4323bb01ba24a15be4dd77d08b34551606f6ddf609142e811e7a66599813454)),
  (false, (0x124439f75ef489fb538e9cb0d6e0a1a50cf6f8e50ebfb73aca74345fc933fa5e, 0x229a4fb67fcb084753ac74da4c5fc38d0616609651266c2c2cc0183ddb939c8b)),
  (false, (0x2f50f9de871ccae24c82ccad7113a2e06d22504d732bfd4a514e8c80a796352b, 0x20dab3e29011c935e2cf088799a8bdb7b3b97850191203f0ef7c06f395b16e81)),
  (true, (0x1709d79fd1a6048e88959112c7188560fc088afd256045298bdfdc0029bf0a73, 0x2d88f396f217393f3b98cd48259b8ec17873019a9dafcfbb33d45b7af1f2f9e6)),
  (false, (0x5c798d71caf3ced1a340d2c58e8a15acd5398952dab0248882b63a9b8dce4e5, 0x6e475ef405b48ebd5d4aa840f122c7728dda5d8af8abb592657d9df670fbc9a)),
  (false, (0xcd0b210f43826bc1beff8cd4e14ef4de36a82e2c88c4e175265f327e049a097, 0x14487d41a56a739d418871ccd2e713e23ce769f942c743d1b166519704d8a371)),
  (false, (0x1ba58e7623e3858a7ab8658480fe926d72ecd67759e25918f24a35f856c7d66c, 0xe834663445aee7273560b56a328a162d9224ab01311ed252b72662cbee773e9)),
  (false, (0x19ebdbb825610f1993ca6843770af3e0216f2b3f8e46276e3c4d7f19d03de7f0, 0xef9e20495515492f5aa3cc746264a2af01095c98643454dd31cd1cce619a41c)),
  (true, (0x727f4ff789d66a55d3040f0f9bb91b66f2ff1156cd9b0748add10b4fc7513e2, 0x205bc0db7e8a40588891d3cdb8bba20a8edadce7c1d7b301c1fa5cb72bbcbf1a)),
  (false, (0x16dcc49fb585ec5828deb2c31f8ad2c016cd98c6e200dc3f4906876a5dd33648, 0x12664cc6b48391fc4efb427ed50499ec90b2ab844a4d20bedbf1c85453a73740)),
  (false, (0x12ba4aa642373e42205d357a25966ab5d4f231f334ea2b8808dfd28cc16b02b3, 0x2aac863418f8448823de44ef2088034a737fd9d901f5030c2e8aa1d4570f5084)),
  (true, (0x215c6ffe64d5a801c1f774c8a1c5cb797a053d18e8735e771ca7df31992217ee, 0x2ded7d3a986e2d62f561989c049f3b79d879379407fad81f7420d800a50bf277)),
  (false, (0x137775708c28fad61216e20fb8fabf9381d8c1ede20a5eb6439b489bf6ba3dfe, 0x13862d364cb11d4d66305528b90ca1d1071ef35286df62d624b8c7e8acf6db0e)),
  (true, (0xdc787be4b0e41c1b3aeb0de802cb97168d19d2478f60757a7d8b19f9926febc, 0x157b8e1c614b4c3a3e00d34f3e17f7829448a23af08f185c3d1bef564f22e645)),
  (false, (0x234e9c0162446190ee50397a052229c49215345fd3854e44294f7ee928c0e941, 0x2ba3af0aafaa26d5358fcfd5cb5b95d5cd6f4ab7b00a19376d7d00548c02cada)),
  (false, (0x16796b931c9f3aac9ba293b2753aee0f48af232864cad2b2b5e3d8de3d211c38, 0x39f41641101cf53872ccba234918a4b63ef74eb7da480a7527d3f19c4f8aefd)),
  (true, (0xeaba806f253e1d11ce9029c31b2abc250f618ef85876cf6d5e1a692b35235ee, 0x1ff46e4a88a50763804d391765fe62100edcb7d66486e41a85c646f4fff3290d)),
  (false, (0x4ee7e4898bd04ff6d3df73796f966216a11605114bf053d075441e8cee4d974, 0x21194137b94108a8c08347d1e17ac8860e6960b819c9fee65dab49762565632c)),
  (true, (0x12a62544559d9bea3972f3418306adc5266a8d2c6d88ccf7494ef80663d4cd21, 0x177cc433c7f2c2bfb8c083a224056d4468d3d8511f31f8ccc75d96c8ecfbe157)),
  (false, (0x29056c4073661537a61789be7be917f2867b736314aa33791cafc04113880b90, 0x276c8975ea1eb5c1b792e5aab24ebc224259e1ad552dc23ca131a8258858ad20)),
  (false, (0x196e1811a38e282a5664b3df7c402fbccc49d55e18697f35aeca8e5f159373f, 0x2a71fc9dcc73513df8bb7142e792c4f26a536b38f55fe4c9d898af08240dab6c)),
  (true, (0x2390f5c54aa041daab54a1caf351e4aa2cd65b35595bebcce07081328924c681, 0x148333dbebddd97cb2e90aa3df0d9afa1b92f74fab4bff7434addb4f0a1a1d94)),
  (false, (0x452a1ffc93b682f5fcf3817ec9d48a147bf244d1aed4fb8fb32d8b9cdc3eb9c, 0x2ac12ab5e0f02313af39f75e8e217c6d3c203d729bd1887e90a180d07190c6d)),
  (true, (0x97abc47b78e73ab1cd43221731f9455a79c4ef6d9543a70435d43174c84612e, 0x51be57ad158bb6ab3641c836084b56a3f126c9d0aa36bcea35a69df2c7b052f)),
  (false, (0x22269749b8cb2f63715c6efa4fcc59fafa49507b5e3efeb8736899bc63c9cc9, 0x11af1ed8f495426bf6790577309a278f388d4e72239308559a38a4ee85368293)),
  (false, (0x2d4939d9ff13962607d5a84d49f2a6a947606dc2d2b3d6d9c9e15334160b3105, 0x137f07566b744c5c7662c8e2e96ea965cadb1372bf700e1f81c7808973a23304)),
  (true, (0x4f90733f881816c89ddea05a539f07205461039517e9255bd9a62392bb24750, 0x1e96d5e91e991ad90270aecda1e177ea19fcc526896a241df6cc58429a89b3d9)),
  (false, (0x1e761bbb12d10e2078af1e7dc24929a06656b5b9d7ab4309f94e45330a7c8b2d, 0x150857d0721110d10ae4cb9e841540b5b602c61c7dda37d33426b3f1186c3874)),
  (false, (0x16fe7ec0e1a9c43ee32fecbb24d2a03ca7416e86a7ddacb826e26b163a63a954, 0x1f2787bfb5b7854d64d2df8c0cdb60ea646b91aab309ac0334619979ac273d2)),
  (false, (0x95a515a7a56954fa98fb1f813dc5269a225b3510cad1b6c553ce0e46e31dd27, 0xce913716ab31f4e77edd56f5c3539170b528dd35ba079d15061a38f4ccf991d)),
  (false, (0x1af8d205935a1248101b0723db3c8959325b450708566be514c70b29a9e83dbe, 0x2498b0986d93d4932bfcf91dd10ef1b59ec691228f1ce53d158411a56fcf64d1)),
  (false, (0x73f91fd42fe30ba1cbeb839780f6c1d6b53bbb77ae6fd980815ecad7295dc17, 0x2de8b7db5ba7fc27a4b4c08e85120d4dd1959e54e73722cd1c370e7ad5d7d809)),
  (false, (0xddf8d96c10b0f6143d431c24ea56bc5cd1c5296d1b043dfe391570a1f260921, 0x1b8a070d260f13e455c29832d70189fdde2614e57faf3f402938a10404300652)),
  (false, (0x141cc56402fa533c31f06988e415780fb62cd270dc654442c6eac851a0ec64ab, 0x21f55c195f13f2c91e88591b830166789d09d94ea57b1bfd376afcbb645aea8d)),
  (true, (0x13765016ba7ac53914e1aea6e6360f3c7d156081038baf2ef52b4800df051c21, 0x2e8708f393383bce2d3cd5cd63054588172d181df4e81e97bc6fe04c383b7a87)),
  (false, (0x256d58c64e0d9babfa9c44fdccfaa6371f3dd5c26e6ca6cfb930d6d1a3a2feae, 0x2bffc7f2a1fcc8893b7128348e7d55ad21077ef35b87edf509e4cbbcfb6631c7)),
  (true, (0x1d23f2fd76ae4fd1377069018617fde449b6dfb150c10eea2227c4e4560d9ab1, 0x9671c5dfcb5abc458f37103d74ed277f1d89ba51ba4132e77f8a4cde78283d5)),
  (false, (0x3e6b4512b17ae618c1d0662ca22c42ddaf0a79e05325d02adff599027ebb95c, 0x1e065670fdf3f746196d1231f3bd2b01c1147a236eed625163e184cdacc0a9ca)),
  (false, (0x2dac79d6ac9adeee72f89f0e7ebbb75ec36faf2ab90d1b83dc3722e14daadd8, 0x2957491e68f2037e7e4b49ee3c3017bec41d3d26e71a545f2ab89705142ce38f)),
  (false, (0x2731746b116ca646dba6daa02b0e96506e7415fe5b6d00225b81cf021c963a40, 0x20d6191245f6ca9fa473cb35f2992a26c1077d81ab8360e5575c6cd53aede3f3)),
  (false, (0x1c9a05605270cede16d51571307e2a81b95e5974c6a837e0601695d07146c8ef, 0x13729f1d7e8495bf02cdb2ca760dfadc66dd30161c437d630680d9a0480d54d1)),
  (false, (0x98c864513bfbe1cc60bc1e6d30e8b0e391adf9193c3f7d8452689fa4ac42a3, 0x2f3efa356210109ed827b9f396a7edf18502b70c4c8de09011c7c1ced75aa5f5)),
  (false, (0x2cfb892fbc4be09f21314fff2f54d711ad457039aaef9c0217839698df558c95, 0xc6388a4d1e5b57a0b5510df4b63de07aaa284c2615acbda7fd07ec7130147a5)),
  (false, (0x1b68daba646cc5def917fd5c5f9ad7d1fb44d318715d29a79d40f2c51d4a8dca, 0x1d2014642c9d654a21e10588886f149eed5de72f2b6e50f96df8a953d5b8cfaa)),
  (true, (0x2b077c3c9a4706a3f79b7b3e3d0694237a0d2e6dd9ea92e2e0682134fb7abdbf, 0x106181983f55ae45198277a37f913e04ef4f88cc4a0708ac6bbc0da34bccf30d)),
  (false, (0xca238344bc1a2414037bcef05eb5228f675e287f23bb38be6af23ec1f76f75b, 0xc0787363171cda1d46d5281b3696d70055191e366a42f202e55c3cd577d61f)),
  (false, (0x2a8f2f12a7f026e3d3446f827f260272d53d4d0d239b267cfe345a34a7bdcb1e, 0x1103d9f11d2cd596e2d6dfe68f8db09a1587b5bc8812c50682c9a7b589a46250)),
  (true, (0xfa334fbe2aa6f3d795b1298a9552583d55a6a0cb12b69419fdcc182c3c4cad3, 0x13e39235a207cf1fa18f7b25b70e50151c7b0c625ce15f632c625e17043516cd)),
  (false, (0x912af4c9a96338f7cf6f59fd02d1741a85303f713b53a5c2f6db7d23779c3ab, 0x1016603ec2d90ab9be9f2b5eb886c02ab180d51dfc4d859603fd37cd823423b4)),
  (false, (0x136b2c57be5f5193b496908b0ffa9296dd2bef567d3fd5024ce0b417fe53359c, 0x190834707b7418b28d6af27818c81c266b28b838052c539516542fc5050d8d70)),
  (true, (0x69e2bbb42b3797a43e6defda5c664cf7d86b3fa954ad10e7ffe9072adc6d95a, 0x395badbc64ecac6fe9c584aa445d6fabc21728deea41a800d7c6c2742d5d167)),
  (false, (0x18ccf3a0c6eaa29c89947c06d4728eef10469ce23a48f545bff61d72e372a15f, 0x2082149ac42416073bc1aea49357f82b34de889d33e5491794fdb1682d88e48a)),
  (true, (0x82c491ab3910d781298a831a32d90e89e6dd03a24483c7e8aea50758e15f3d3, 0x1c458b4187f37627bc9bda225f0a39624e49e4db7c3676260d52bfe05fe6ddbe)),
  (false, (0x214e90b00477811473890b7d4f2e2de7156ade98b9fafae152b9e7e5ac43c2c1, 0x19aefc8519bf8709f7f676dd0a258ff5b278dd05380faa9f5d540a940776f6dc)),
  (false, (0x2d2cdc05652a9d4a148d3aba9c42f3bb12c45c25094d6353d1e85c3739ce829, 0x1cbda5b40e3e788a9acf04320c879391c6ca5098277d0a3d7dda495bf2805dca)),
  (false, (0x29a15d9fc49d11df200df5a0519b879972697051b45e237d3c4034c0f219a8d9, 0x18f018f106cff844d1be766de29a9b50450a94cb728a917f4dde81e09679e142)),
  (false, (0x11b266054c7e5ed17b2401402524818eb499ef4cbcc41afb5a05beda46e40958, 0x4ce82a1dbd9b95a90cb3312987d7db3f328e4fb97c4307ad07f2493cf0b9ecf)),
  (false, (0x2658e7c9abac5378063fbca0d54323414f1c00598ebc9c9c09fdf21ac873ccf6, 0xb4cafc51e277aaa84ee09dd62d65f28286fb7b14e891a59e10ed3c0221b0986)),
  (true, (0x24b31f0dbea747a29623c6b695e31eb34b6d45b372932bdef311e48f53bbef1a, 0xdd9641952524affde5fd8e11ae1cdc3fdc671bd15764f0289e3295784beb376)),
  (false, (0x1daa950f08a68ab8fed9197b3724b3d9ecf1c9e0219601ee594192211b091585, 0x1ecaf87b0fa42a4252105db7c91cdfea4058c6c2bd6b919553b58e3bb5fa4450)),
  (false, (0x1a5e38ef02aa0ac72eaf9cfc71e1d1f200a770ae6cc83eb4ae7421bc913a8d94, 0x118ffa9309b09f3cad0e106e6823c167a7618532f18c20f8a7bb3b2500ce7a43)),
  (true, (0x73b118caf4e2521e7b81f9f0a06dea763bb7183d0e86de7a575dd7076d17f58, 0x2a950214871388b94a69c18d5ad887b48a9f2761265d3129aaa54b550fdd2fe1)),
  (false, (0xf25531ad304716cbdf26fbc693e0dfa2f6d379723daaaaf272c76bf686226c9, 0xc6964530e6879bfc983a6d7d53773c838573d410fb4cbb74a44808c03626931)),
  (true, (0x291049d33265d1ef10677ffbf4e14f3113ecdafde76aa351defda083a1fa48ac, 0x14c5691b28897f94d3f0abf67ec25cae4c1adf36d445e8d5e5ca3f87b65bacac)),
  (false, (0x2016ed4f2a286a948d0fc846bc53012372a09f4fa7c86013495ae030436d5e73, 0x150e2e49ca315362cb9564b3969f200e38149044621810ab5339d5fcc7d5f614)),
  (true, (0xffee9c50bc39c93ba037f5b3794a9a95b55b470a6910453df284a785435bce1, 0x2e988a57cda266002d81f561157f3d34bbfc37220957b2064031f950cc3e4b2d)),
  (false, (0xff14ebbe0095bdf0ae0da3bc30bd6c00f1f7642ec3b7075df700625e6cf8bb7, 0x2e164ad080c5d48e9a529462f0e4c451747bcafe952040a5f74a90870689d135)),
  (false, (0x102639aafb37003ec3a5aa897477d5234b0830519af104eee3a346a4f52ccac7, 0x134f0e67bbfaaeb9e7a7593e112d60e2b457d30fefd11e9c11539a548931bc67)),
  (true, (0x26e50824fa3de573de64fde9e74050d211457e8f56107f08116916669c8522b1, 0x15060559f3b9d3a53dd1332434275e5d16f880074baa1e429f3a81cb3ce083ef)),
  (false, (0x2b849990f63cb941e96c2acf6251c77662a8bc8704bf57dc97a005c345593021, 0x26acfe7eba515740899ad98d4cf50fa7cb58e1ca0ee81d514c5de05ac654f806)),
  (false, (0x175d79c41516197a329e9ab313f97221f6def17d3ad0d564329b97cde5a152d9, 0x19a6e1dfe002ad6ddeb59bdc5a63e648904b7a5bcadbc945e417f503de81feb5)),
  (false, (0x1fca91962cf69f7ed034f1b86dd903f10d6e0b0b096320739454f49c79d72775, 0x233aa4ffd8ab5389be4681b4e9f7d49bf87f60a7d491399a2a657da8f8567f3)),
  (true, (0xd6aa8670d7958cbed7876cd23ae3f5c738ce6ed0ddff140059f434cdee4e1ef, 0x22f3bbdfd6d84acd41f38b6d2f64fc3a6577149a0ba7531c207f8f99b576fdf5)),
  (false, (0x2b84a541cc9841273992e5712cc5ad20c08bb2b2b2380319d3d0706afd2b596e, 0xffca5904293a66ba3d40dd1609f50ad9b6c1e08db52ce695920fc84f0164c5d)),
  (false, (0x21e1879cc1d96e90c432f76ec691c9a042cae821b75768ce65235e35e5edc8a, 0x17b9afb6d33519c41ecfece209192c2ea2fb922bc88a458ef9249d5683777ff4)),
  (true, (0x9c5c5d9dc1d6078d0c7085bd0ed368718c2d33f9f28a0a4d0cbbf4d9a221b9a, 0x1091323c517c53f1bff7cccccdaf04ee9fbdf52a4891a84609269393b0048937)),
  (false, (0x1d0cb7dbb77b20b169ca6fc1004b95d6db8b78155d5af904e6441f602bc9573e, 0x140579b78e35b41280894c605a2cd9d50172f745f5049754041caf96f11e5927)),
  (false, (0x23332f9726ebf3718edd875bfc5f1074bb02cf853ea3cebeedce52b573fc02bd, 0x208f5fe413acab69564ea47dae53daf76ec4191237900f1c769c1aa33cd7e6bb)),
  (false, (0x14ba3b3be4ee6a51a3e2790eebdf1f9c2665f615c9f37b97674b24480379b3d6, 0x2ef4ee00ba92f27e24ccb8322919c694429581b92bcc034b18a01bb0e1a92d8f)),
  (false, (0x1ce344effcc9b3f34322d3b125ed1bc286dcb631c2c8b4c0056be68a6ad56b72, 0x8694f87ea22dac5eaedb435e10f759019cfcda6521060c2c76486e416e07782)),
  (false, (0xbb398f1e1884e0e40af865d8337fa0e239f79b6002864095cd813a273ed436, 0x27176801e6fbdd6d459f41f7ff7ee59dd1483f9d475fb94bce58b245228d075a)),
  (false, (0x2666d7ecd0df5c5fa570c12c5e279394dad0bd06e2ee72d16e25dd0177cbb7f3, 0x192895c439b6d5a5fccb9884a43f452d01dcfe98596f363d82a0bd08da9f6189)),
  (true, (0x21104f3ddf586bd535308844962c61aff3aa17eb46997a1a91bd384df72995ae, 0x2ab3a0a73978a04b18bee8884214e5f066151b92838b34288246bf0e86067e3f)),
  (false, (0x2e129243f765247a17278028f2abfb001f5e1144c1e5b1e5f0f897d2e067f4a0, 0x1393a9192c7b3016d035b35a40a3d6c488626e45642634115b4d87078819eca4)),
  (true, (0xee7b59d203403de965ef8e802c5d2659f24ed9f94e2cc3b00050199b1f8d337, 0xe25b91d1ab1e47427d7f5b50d5733ec2e55c98d3f71baf781589136876b81f9)),
  (false, (0x1a830b3fe8c093e45a547fd9b7e36e30860b48557f1a52a95e5d73a7c1b1d726, 0xb08a42d1c84920a6401b159d94ce9e9bb5a5a637fda9af4fa6d24ae9ad0265)),
  (false, (0x18fb500746210d14ba1e82081bbb1436a8ef54eaabdd2e7bfe0989af48c156f7, 0x242f7ff1bb57f2c9ec0bd9baea12aec9a092a2298898aa207a4a54a562019171)),
  (false, (0x2afe4d7e04ac5f8f9767003075f836b5047c15947fc7e5238dd2128dfef32e36, 0x12d60bd7f0fc8bd129021a436e0cf8cda36f242c1fbbe9701bae5518c81c6935)),
  (true, (0x178946a812fc9157a51dd63d5df92c9d063cd636c48372322cdf791e88bafca3, 0xb1ac182f7f34fdb91c944c729cb801215d203c3ba4b7a352ebcc25c829128ac)),
  (false, (0x1751048451b118200bff6e223154e9c30bdf59a768308af6cfbe25a3648712cc, 0x118ebd98c113dca4451339d7f750bd32e41dc2024d5b80ec60224aba5b1e39aa)),
  (true, (0x1eb0af4bedba3049d8462278eccc389961074083e539c41aeb65120addec3c65, 0x13ea4c5b16b881dda7694a1645c9fa5d8bf549482acae67d29ef9f13620db346)),
  (false, (0x378c11006e0efe99a9d3b70403e3e1b142d33572c0ffe45fef057d9188863e5, 0x241917aa176d438129ce78335b4547c2c5316906b79c0fd44a61e1a7ffddf34f)),
  (true, (0x1e4dc8bfd2fbd5647c788a66c86b6ca92e878cf98cadbfacd2641c32e795d681, 0x4d20c1adcfd6ea35e5f95412506157c775cd2de70b538f269cb821ebe3d24ac)),
  (false, (0xd85191f3dca0507e9c11d95872995770fc0378800c034d0ff192db1a19665b8, 0x208f7c57390fbcf296df98245e3357b205961d2a232c88c677ec2b43ad7ad7bf)),
  (true, (0x1ce733d2b09f40bc1cf693cb0b7d2a7005f82c11454f870ae221cc45352493d0, 0xf227cfe0c91a7b9cfa5d9fd5c7ae7cca2330d69571bca7bb265b0e868ae0718)),
  (false, (0x183473689c05d2030fbbb571a280bff92c68dd3d55874ffc369f84ac1497747, 0x17172003b4bbb22fd124b8329a6bfbbc98ac37caf9599526204689b4c6af3a34)),
  (true, (0x1578e51241ce7a8a7bea4afc3c461f5025a08e343f2aa6a4d87711688434011e, 0x1a36000c44747a37ba0f5dde97268dbed943ef7c16ca6c312d193d0e297df9f1)),
  (false, (0x21f66a52f24277e64b6fbf9767e466c301ce9b86467160e8bc446db6aa124e56, 0x109a0377fa34653a6c3a2e7923cf541a0081890c3d891b5cb252f6c8f859e5a0)),
  (false, (0x2527a577dd1e5d4e57f49abadeab9b4cdf08e00fb86ee070b4ba7683bf9905ff, 0x3e8944d717503fb4cba86b1daa60744ed38311020ad9596b7a659a80ca7a6fb)),
  (true, (0x130c59b526c50ffb8861e66200d4e780bdc27eed146e001b69f55b5eb4e0cb38, 0x125559f09aed83d872fea9546f6df333610d7f78be5f97e7d684539a79c9660b)),
  (false, (0x80652610e54486abd5341f873dbbe954cdadf529b12e3c831b0211c77073c41, 0xb3f0c08b3177baa2adfbbfb1079b3523a779b1e1b24c01b70dc478e62c14126)),
  (false, (0x22e80225553bc4411d684e06747612d614f0d3cbbd22ba9addf5dc7bb67b27a6, 0x173f66fac2fbe092ba0444f474b22ec67e45adc5d764d342e5142090180344d3)),
  (false, (0x11144e8cc5a49769a0fc02355c37618d4b538e5ce96c32d1e449de54d044bbb2, 0xbdc6980a5b6cf5121a7cb106dbb9820a8cd735c14599695ab82af16abe98b7b)),
  (false, (0x1cd727bcd2250f02adf91397000b6ab70ba882a3430df272c604fa5b1d5bd3ba, 0xbe923aaa45d8781a6b4cd3310dd86ef968ecd63b29663a527a4075261f5bee9)),
  (false, (0x2d4a9456cefc4d3b2905b5a30edc337c7e67778a56e23fefce3ba8f6a2017f01, 0x9a78920b9d9e7e1cc5f3a43b964b3334d8eaa7b150250a4804a002beb0f9793)),
  (true, (0xd9715e8e4d58def1059d185f068ea378c09f35bfa3905f1e88bcb81dbbb140e, 0x16a242c3406ac22339de75428ffbed9d786bec88ff6819741d801bc22e7e2acd)),
  (false, (0xaed1346f789fd530f9f552a65ff43cb5432e74d635a560ae543306f0ef43b7a, 0x1970394783ba7c3409f6b08c9d603e6ffad3b13f48b8a7d98122f7b09a96fef8)),
  (false, (0x182f41c8b5b0125d2d8730f2a7ee1402d2b097b9affabb7aaec716b44f26a17, 0x6744ba7368e5d7deda6d1cb4fc0e1118a3e7163c2a3db21903b4230def5753a)),
  (false, (0x2dac045f0c7b62e0500fbd4fa5e0ff9035420dfe4d9c4c120007831833cbd34d, 0xa6247c2d89e34b0f7ed5488800b0e9853ef77344301951ab2489d2ff3d686c1)),
  (true, (0x21b2063197df8f197cfd082d71bb2fb5e8584d7fb25f93eae2b314efc0802a01, 0x288d39d8969e3cfc6f8e64516849da0263b35e6ed50a79adc2442fcbf7328e37)),
  (false, (0x246fd6aa948c5573fc4b71304fba8ec460b7652b41c3cd9293a7f39ea1cd2511, 0x20606b6919afd49ccf93ea85efa698b3e9480eee651ad92f689bd1f6b1d5a7ae)),
  (false, (0xf2d6c4fb5af8cb5d7d9ad8c6c183386c945fffab822350bc43da137e78c6d8c, 0xb5c2aaac1f438f3c959f0236e1c3d565d72cc31f9dea5877396932009a95610)),
  (false, (0x19c37e867b53ab8cf52684c5311330269e2474c2b8699e073f540efc5bd719db, 0x16dcd349026a20f1fba06b017411c74695dec2fd3ff1271c645c370af2163a6f)),
  (false, (0x82845a7dc38947b8f0c5b5ffb201e16a51da8a8eae06edebd0abfc4a02490f5, 0x2621bbc419c63a2d73a289713676c9dd497332d17c17b3ed721f97f677e7800c)),
  (false, (0x2b5005d6c76ea8b7614c4a2f5f297d3f00c158f84e1a3a1d00703fb8f0272cc9, 0x2f5238301f62181afc61dcf2e29e85a2d7d5674584ea465b00ff6230eedceeda)),
  (true, (0x20b0dc1d782ab69716239dfb6fb6340ab7461b10d329688786168f759c10cbb7, 0x47097c2d31b420d909701e4af8ad7a87d1336731e02f5146db86cd653e29b7d)),
  (false, (0x18b8f6506a010fdbde2c6b7ed68f862830d09edb019b96895ad79c84ee7c282f, 0x27873d20a4972c57927f52956e5b91750ad0e0e4cda1ce8d6a51f7cc5f305a86)),
  (true, (0x1821e0aac68263457fea4e6a5ca75935359c3a0a13bcb41fd7c7ff9d1fa9f9cf, 0x2c432dc78769db69ef7b3a39e0d8f4490adf065deba36c160f5681182e6216e1)),
  (false, (0x88ea83c187270d0d1892d6e6fe5f38f545896dfe16bd57ffe70abf577976cc6, 0x11fff82062f204429fc48c362eb06a89058508b269ce781dcc3e0b3f07c8659)),
  (true, (0xa0fa694f0d1ef6f73870f4de533fcec5bad94badf45a477851cd9b23bcee237, 0x2ddc46de0e678f28daff46b20cab9929339dbbdf5ff96109a4ff5d86934e6b5c)),
  (false, (0xc98b4bb1237b17226e9c7762f33f2beee9c503a4c3a98093b690a47fbb9a3f3, 0x13bf11bbfd6ff9caacedbe59f12ba750535fb6c4c29ded0db3e1406a398509ee)),
  (true, (0x22a92b71c998c89ce24e97e61adf4e6c2eb132a87dbbbba78781434237927f0c, 0xa0d3cea838d3f15bab4592b8469e3c7679356ca6b765ed3f483a940a981e071)),
  (false, (0x20ab5cd79a4e51d4fda376995ef458e4f24866e810649b483439a244f5f24abc, 0x19db58f158c5e4f96af396d92dd9f776983c732ef9f8626f210422170a35b85)),
  (false, (0x2327b1c97ea79d228db5ba8e16d4289916b8777bee10e243d4c3487ff7e8c6ef, 0x81fa6c445f9cd60a7360eef56418c198adedf52e21ec028cd5106436446bb37)),
  (false, (0x58d2e1d5c7f6bde61bef3ee28327031bdab9e3ac2072db139f4e1dda439f9ce, 0x21e8089e1890586025393200a13876590c1be7037afa4d7bb553e9f334150150)),
  (true, (0x20d680305a7558021a7f2f85b28e26c834a0c41fad8d2b31ae54a3e316734335, 0x206f0b3a41830d402ee7953c4f93d93462fc9a5b617ccb9749a8e23f7f871d81)),
  (false, (0x2692315f89238488250e36cf0bf4b3b307bbb59582d91246efa01a8d9bb62f56, 0x12864d39f5c2bfa74bf5fcd54dffe7bddf11a0fa621c3fd84712f6284474b5ae)),
  (true, (0x362e8c2726add43c5a95a469b1b9a80f8370c3546d577d2e64ac08e9152bbbe, 0x23b978f630ce683b3fab2a1f78c5c806aff03f883b148eac0e24ad40c8436764)),
  (false, (0xd0fa5ba1662ed1cbe573051836ef2ba50a4da01e43e15d8954d12aee1778e11, 0x17e018940541c20cffd5b432b5c4ee5c64f7669eca9e43295e7713f89149ec84)),
  (false, (0x209341f15f05fcbaa2697ba8e1fa7afa32c158a02337777112ad25364f9a4f20, 0x2f34a1f436f353ab19349d01e0d0411aa8f22ef26d904d47384f420fc5c555ba)),
  (true, (0x10d50aa8c6a69460f900be76c6afd777bfdd49ebe80acf1052c210c94bd33531, 0x1f3f1241bc9634eb321e39c91078889bcd39238f1d6de1d241102eb98887beeb)),
  (false, (0x2f3ffe1aee395b86bed30ff63482f57aa9981a7617f41320712e69a594defb57, 0x2da59ba27d0962cd2b4a1d764226f5da2e8a48ab4ddf7c6bfad411420d65f1ae)),
  (true, (0x18c076dc180bc0c5feb896093bb17bbdf30a39c839419c9a0f03cc2e4bbd01d0, 0x73b9e5708be8aa010854a366459d8fe9488fdc576da56cc11f7230d625ae553)),
  (false, (0x2eb27fcee5f65935946827332f50e7749f7d5cba77c6aaec7fff74f042f35916, 0x9a4a552d025764a96dcd7dec0166ce38ab5aa179b9aafea3280de01d021a90c)),
  (true, (0x127d620da0380149f9e6a5d957d3a7e6cd0ba7675eb752bcd5eded55772568f0, 0xfefc433ec126069b78bb1f236efab53596273b8071bb91e5df3418e35200538)),
  (false, (0x10958007f307d23f3b4de2fb37a8b900e719eb7d262477b0ba0cb4e93aa24152, 0x12d25783fec333ec12177a3fda995ad36f7bccf7b868873d41f7cc65e13f3585)),
  (false, (0x2ea0a4ec1256719f49d768e9f9239a5ff1ab64461b63c63522cdfa13d1fa8a70, 0x2b87cdb94679aa444d9792418c1a848685da3938cd4a8a8c1c6f3b41b0c1e59c)),
  (false, (0x2641497eb5f1e5bedd7574de44e37f3389e6563051eb37103ce357ccdeabfd87, 0x32c4bdeb1bfff6a06c49d9d12512748a729cc14eb2b8e1815398e120c1d7e01)),
  (true, (0x1dedbefb6fa7d2546c459c80f377bf727c7f756557008a6fc1c5419d04799289, 0x261507a883c74087050ac5ead09e1c90e8bec209b5190e5e3f7bbcbbcba565ac)),
  (false, (0x134149133dd790dc3178fde3676930aba63a81dd4ded833e064216f18c76f1b0, 0x5e2b87e61b529ebc944e9e5e35accbbcf724434b4ce7a4ce953d8744ac5f0e5)),
  (false, (0x97115f4f1475eb0bdc66ad632232ec36336b5958a80ea842f93c4178cadfe42, 0x1c1eba53f3cd544f0495f76278b5edac4d34c2aa02d8eb6bb698e6d69b94a39e)),
  (true, (0x11fa93107ae47516b96f15ce24a15892e317d3399281852019fa99caddfe5f3f, 0x21cc509034ab134a5d8682926da86b3f660e05db6b1b29a933c4ebb7098a5fe7)),
  (false, (0x23d07527c100926a98962a3c0e84982d1509171a5ee89fa6bc67995f6b7fdbd4, 0x17faf23804e30580881da62577b591db9278040feec0f7aaba984aba0c02d1fb)),
  (true, (0x389e3b6a073b2ddf6e1a7d5f91327fc32cf690867c98e12473d994de2c8d959, 0xcf0cc81764bac4dec87cb1e55a3b729acc07398f91195a3efa018d47ac198d)),
  (false, (0x35964a707c966c14e317305899c667fe7c9302c6a22d56b9cb8ba4180787212, 0x30643de069d870028fa0acfcdb16222316bbbd30c670147e08e9dff3b2e4a7d5)),
  (true, (0x15f751820d0a99dd49a220858dd4c568ef891864409fe9d60ae6454ac7f29260, 0x2d91ef898c8cc766766cfdeb37c42ef121aaba3cd78f5e7041781f711368d28f)),
  (false, (0xca33fac57be2ba656baa7f53ad907b3c53614ccdce977c428ffb2b7fa66cec6, 0x1710f85953b4fbd555d6382b02d581210199eb53e3617d73c706c3cc7f9db043)),
  (false, (0x2f13cbaff8a810b5328fac1cae9143ee30353f33cb4e85348c11cda0935f9aa4, 0x2be4e3ff1c17ddf988674e29f917bc8528991fbce62ba47778bd46219fcaad1f)),
  (false, (0x1385e405d5546972dadc848fccee0b2710efcd2ecf66f70958dd01f44809d316, 0x237fc0e74bae247f113df81488a6c9e9a5b0d2bf4a61fc3b9196dca60604ae33)),
  (false, (0x71967bc6b995f7f7e24d5c7b1c7fa5aeceeb2a21cdc728f6dcbdc18527a8dc5, 0x28a671d1392dea2b4c60b5e741813387c4a41c61d946b1ab3e103b0e4986c71a)),
  (false, (0x2b304d3d0aae19079ebe17bf14e2dea1b5acb89d92ef19f3cd6e2b7ea42a2d97, 0x2c026ffd4c74de5ec869d67701ee9d110726e1cd6ee741db8ce88691ff7d5dc6)),
  (true, (0x82c5c0fb25f566d202d9187653fec74d1dff7303042ae2d9ca88912207b53c8, 0x24110dfa207d5f1641b0e391cb8cc880b6d68d87c15815b4d59560068331a39c)),
  (false, (0x2acdb88b151cb80b0fa0f2c750beaa1252641baddcc60ab2f4146452c0d9d4d4, 0x3fabcb00171d9a4776b3ff4ec2192fd050a8e77ac76e8c013763dbbe1697215)),
  (false, (0x1d0ea47e4fc065f9b9d101ed4f2541ef2b5a378aee5ec2a0565ef85ab153cfbb, 0x17586617ba9183df8796f8d097825ee0dd65cd0fa609e9fceec554a12c503018)),
  (false, (0x63473445ae14ba395304cd0c716bf525397aac93066ff3dbbdfed207bb76bdd, 0x2e76387a428e33ce8871ff181415ecd849426c6531c476a9f7142ecefcd3c062)),
  (true, (0x1f47f06b292674ed0cd2cc24b54f7a6f2c0015775260777bef01dcecb9047de7, 0x205ade5d2f0adda9003248c9751b67603ad2f8db089f74536d1ae91ad2860225)),
  (false, (0x58f4160ab08eee96c0607efe71802bb368de6ba98e16b19bcc04e062643dc0f, 0x1b5e692169372fe69b7b7164d5666be07822d85ea897ea377112db6175bc189c)),
  (false, (0x1bbb98e202e0dbfce15f2ed8f7fd28795e5e5fc1acfbf520ba780f0e89e1f8ae, 0x292711e940c16dae08c11dfb4fd6d7a531d830f75eb40138c897e9accad547da)),
  (false, (0x1a3a538efeb1f08b623755a3b47505ee1728521a8b750a6702f4dd5f8a89436b, 0x1bc1e6824e64d3feb76d772485326619df921a20b9a19bbb12ac574bb5226935)),
  (false, (0x1aff3787904c5000646ef35c0c93a10bf7d47c99ecce02425d344335d4ddecfb, 0x2c9353e8a2261bdd6696384c674f876da707d3536942e58138aa574dac43e3ce)),
  (true, (0x1a78cfe05ec8bf1927800827e4cc0cb8675a34c200833e53d9f41406805b574a, 0xb75a74e19e4a63fedbc3bd73a01fd355191f7179db4feda4a3dbf0d5e2112e1)),
  (false, (0x19ed5fedc74481e9d9ab1cd75b50659cddf9aead385e9da4f21ba00639d879a9, 0x5faa35882e3f7092e6c45476d58d6cc7c3de81957cf5e68f8cde07e02c5801)),
  (false, (0x266f8998004092b0ef22ed3a9c93453899923cadc40a549f833c22fb5d4880a1, 0x21b7b941092159aceba64e2558f88e4cafb4bc0af6be0638572b9e0300bc39c2)),
  (true, (0x916ab1a69f3c9f25e86924586cf7e83502c1c9abd69effde6bbf4dcc7f663fe, 0x21cfeb026c3818a6e2eed694b0a11ed6cbc24008811ec8fc0070e1cd61b37f08)),
  (false, (0x2b670269301807cb89c27c86f443d5ab4e1917a764863f29f0a14b46a0d5cd5, 0x2457a97745f5ca37161ad06a5cfdc790a1f81efa4c48160f5bc4d280233f0a8d)),
  (false, (0x277bb0d62d0305b296ffe6f56b7f7679fde012a4226fd1d0ae119f0d7a023460, 0x7dae491a8c4cdc425abf6cd6705719bda77433f1d24cd766875820115308766)),
  (false, (0x184ae5e40a8578c960add0b5cd86aa45255a3d0dfaeefc498e173afca236626f, 0x22b250f37f9114e5407a8f5f402efca13273231d087f0e79ec702fe8cba7aa33)),
  (false, (0x29aafbe0a01fdfab371757f5a2fd067a5b545e90b2deb1030e41ae391a12fd17, 0x11bcd3ecb9d6fbcf3aefd9cbdc85705d422b8e9666b874f27eee7de75dadc066)),
  (false, (0x2d53773879bd558ff10d2cd02b7d5178de2ca82174c370e339894f2c706f7033, 0x75ff0fe0ad52ee7f31a9cf96465b86784ee26726bf063e39b1d0a0023fa5ec6)),
  (true, (0x1deea6cd290c8aa540f7d3549e73aec7ffffbb541535e0606c9cfc3469e5fee7, 0xfd3a4786f1a45018096c9193c4adfd390486c46d158e6d0534cdace0b4e7801)),
  (false, (0x21e531c1376a0b535e4bc64e9e9d117812db960822914b760845bd0ade8a43b3, 0x26b8fd6c32d055b1fb5693d1face5c1d13b8008c0ef90a865257137cce8460d8)),
  (true, (0xbfe1caefeca91d5d5616b0590c623aee3d40bb4905d34ce6690ab5ca283114, 0x20f1b6d7a8732ac479d4f938938653bd5fa47a23a4287ba8bf8081c9333849eb)),
  (false, (0x18b3df920ece0647eb8c37c0b6dd9d1ac6c068a2c52645e9d83019ff7931be7e, 0x26fd832fd06392de24370d660ff1102719ce14c30d43be4f7718346229af967a)),
  (true, (0x1e221a132e6b8e627a34a32c75201a9fe6ee07efdb21fd7e6e5f5629449278ac, 0x2f09b627e0cea4a499357d5e607e40ec1e23996ccb574b202832aa4c5799251f)),
  (false, (0x26ecc4ade27e69053d9c74815ee22eb05af20425c916bcf696c44c4634bb908f, 0x2fb8d63f42f228383f5263e6c7f9ad744ed449f27f8257440527d8834f1ee777)),
  (true, (0x1b3f8a9fc2651114cfcd246f2f3ec625cbdb2a4b778c89e98eacfd71c78745b0, 0x14f5a384ac7bd658a0bc5dc76219f0da0d5e1c089c3ef833416d10d763b4f379)),
  (false, (0x1174e4b7d0e442828ea83ce81ba685ec0fe5f2169716095e1b6bc30dd2623307, 0x1391629f789ca98ec78c41f13aa2b8d1612fb70ef2f0c068d655c01b400c09dd)),
  (true, (0x2e68bcb3e9adc73850d9a0fdf027d717c706ee35435cb3100634289548968a74, 0xbfd483430f77d74afae15f9eb420c54dd14720efdbd24d9e89f566343e0f45f)),
  (false, (0x7bc9447e9e401c2abc3af9de8d14e574fe2c5d7487caeddd8b94a1f34e0167b, 0x26581010bfaf3ace0c4af2a9b2d02adfcd5b4f414cb8285b953ed6c532ab84fa)),
  (false, (0x1f16475f3ad69bf37fd972418d2390c062ba682d478eaf1885df989e5568f0ae, 0x1da97b9f5a19d629c5440492821c2b6e1d20624fb0322a86e519e6e97c096097)),
  (false, (0x95daadc415b6fcf2959c43c011d7fb380d9d6bd39da5da0260071c051c373ab, 0x20061c4e2f3bdf8f4b122de3ac2c1ee42371c538e8adf8ebc7395fcc49a4d073)),
  (false, (0xa9ec115b417462e63100e60764d23871409725609bdb3e52039d995ff1aa53a, 0x2d5a2ca43261abd3c7625c28ee629456a90457e0c0131411a6d5ff0dc354ba9c)),
  (false, (0xabfef978c6d62f8c32c0c12dbfe5c4209d2ea37c20fd20ca9468c602a41caba, 0x1d3a6d9dce3821af4dab047505da78d015e2e35ea994d2cc7cecc0f5a2b1e4fd)),
  (true, (0x2eff40f95d6021c52eab36b681860ced7c36d30b532ed4133eb333fba7900e2e, 0x2b602271d8f3466d4eb8d49b7927bba54c7eb6b2146ea147a33aefe588c0f5d1)),
  (false, (0x263cf571e6be1d85ea990e93023df6c4110e36a96beb79cde839ef86ff515fe4, 0xfa95d7946cc338b6b970ad5aaf7f681dd4193e66c97a8a7c95c477215f6c881)),
  (true, (0x1a0c666f6f02f22a41e06bef19be4d01e0dda50dea54f19a956b46ebd293c88f, 0x5456beb05c0d090fecdea792621bd3b4b51a38a50a1f4122daa836007f901ea)),
  (false, (0x2d8c6b1e4078fbd3709092f5d7c7c88d905037040c57b704346bf95dad51e110, 0x15b6be6443fb8e4f012b91df52c1c04fce027a75a93adde3659e7c7ec3ba2bb7)),
  (true, (0x1c2ab28ba2fbd488adb6ada4dfdb25764a27699b4ef4960d2f30061f53420c7f, 0x1b9c4ebc8808790d2a8679b5dcfccb124667878c15262762395d1e594fd69d30)),
  (false, (0x7c11da0b2abe73af3cbf2be28e66bf3df3755fac628020dd476219f9988bbc4, 0x222ac697ba8423fe2cf52969ae4428f2651c88c4dee2f5ec99d619c89526eb3b)),
  (true, (0x18b65f3d2f6ece2cad66d8c04e3e29f144d11363479e5b8af507bce2c14df769, 0x82a845aa168ee75ae5cd7283697b7d484212ca748ce301ac63c8cd377552765)),
  (false, (0x91ac6ec75e228309650fd04e1be31a7581f8a66fc9d07b601bf97fc435d7c06, 0x142bbe1076c1844e50b7cb2c78973cfb918e31d20b6e1d255dfc0d4acdd9909c)),
  (true, (0x1e9e0a018d0d99459c004fcc17249a6a5d9c2a6bce5e1c0f22a0e13037325c93, 0x12e1f3e4ca4edfe97112b8170c804710226e5cf263330745ff933955813f733b)),
  (false, (0x31e129b528d35e2b9f0dee0a45df478d16244b3a7a67998c128cb91bef369a2, 0x2a1fc02579a62a2cb3a28192e8d6600bb7c91517647f887af42711bad4d7ad9f)),
  (false, (0xff4983d5a697cb614e4e571375814072cf3175a3a70dfe69420c6aae95629cb, 0x17053627214868f2d0369078a850806f2331c3aaedf6a3c3723400bb30e6cbea)),
  (true, (0x2c05bdb24d86191a36706275e19b6692c3c11e291b7e08d934191740b51b4dee, 0x2740201fd2914ca9c899d5042aa5d369850a308f41a111cacd747227441c38ce)),
  (false, (0x26c21ef1c232e5ec01bcdca731cda6cfadda77428719793dd9ccc7b6fd5aed64, 0xbe4bd4ae46a39994cf8d0ed9403fcbfc9b10b5e07d5adc2c6a657ee8a0db508)),
  (false, (0x1211c8da64fc2ee02f1bd84af51f8bb014e86ef531e5a8ed809fe359ca8ea001, 0x2bb86f91691e512f952a3b2b4b7a0789059e1a67481d8cd51da15c670e037295)),
  (true, (0x1c209fdd89d82ac95b485ddb35759c6848e0fc2196fb768b2ffc142088547464, 0x29ee9694d90f1bb38eeb06a1971a1e60645ed75d6db7b57d932379db929b8dab)),
  (false, (0xc8164401dd825659a64415ed60f62325918c3c49305ad06327e2efe2d8bf9e1, 0xbc0f778aa22620204c977903c25b3798fa314dcac759e19a05bee9da1d23bcd)),
  (true, (0x13d1e4bf24752df0763aacc4232b1cb5379bc38fe29ffcfe81983167880b233c, 0x60d46fe2f321e46e26e776fbb75dded52f0c5cf9abc543911b9f36f47abadcf)),
  (false, (0x550967e49a02b2111176ebe05f807c810c7b9eb5d203c09ff89f648bd0235ff, 0x5396b2b8d7f2f4bd23be0cb0268ed6df3c82e84ef517633c0458392f485a6f9)),
  (false, (0x152f5591b5a564a5e01592ebd7704349743dd2e923819e936aaf3da65f4baa5d, 0x4f6b48f512ef63d0e2e86fa8148e179ab2a5633f2e1ede0f39e738e7ace354b)),
  (false, (0x152a418468e5aef80b87bd06e4f6a1d48de974c5fffe76745d427c16cb74ac67, 0x1f57c5512978f1ca97f3d59c653dc4ba97bbdf164289a752826e213951fabe70)),
  (true, (0xc9ccc341ee802bdde2caa3c27d8d443b8e90076a20697abcf26a7755165875a, 0x1b1b6109203a737df789d1f9dfecb3d750803199e3a1538aa1b3b7aaa8b7c43e)),
  (false, (0x204542883731ee836c7d946b6083b69ac4b90d9e081399e69345c2a32ee9df0a, 0xb622313957cf57d5f438482507b4a92b5b6d4c4b7d92338378758a40b0fb887)),
  (false, (0x271944bbf4ed979d967d184903a00d526ca715555295ee19452fae51e533c934, 0x1f88879f7876f2ae757984dbfb579b79904c7f786840806c43f242d9dac88f7f)),
  (false, (0x293f875e2ac56858fd5fe6690d6a351d48c20a9b016c8b377e3b37c8ec6f9e15, 0x7696937f51c4c5a793dbad596124eed89b8eda8e5ce92825743c9f3db028b67)),
  (true, (0x16731842a6bdc35c6721a0a716ee2c8098a612f3ce073e3a27ea2a75f70afd6e, 0x2ef0a6ac9df29191572a8bb2db3dc6d17cca84100bee14c76981fd4eb26073cd)),
  (false, (0xf1e1099c5f842948575bec808fdf82c29b8d72329d52dd1b4755e6a68ca3870, 0x2525238e83d7f62dcb8b967d15b55d8b0165bd6700f4ed7f89eb11faa2833250)),
  (true, (0x25ea119ee7906fd2981a2b2dfda4dce12f30f340e9a6f578aeab4ecfac4f638b, 0x204e5e38098fe54d2f0a2f5914d92d723ff8f3f47a26bbba7fa4e9423da70f69)),
  (false, (0x199a2228c48ac5bc363bbe75a8ca5c14c319217d670495f4a56367a25624c141, 0x15801763e7152e87e0cf0b6fb1600db3f4aded5ea0046a4f9f4de007cf4ca16a)),
  (true, (0x92df21a3628c5a53e95dd293a4c9495a859c0d668f949f634b372915ab9123d, 0x1a84c8f5b2068cfd37c6a26d29ac781f39542254aad7b2b24c4560d3de71514a)),
  (false, (0x13bc40c3b3ac7b4ced611074defcb2346f40b79a8c8cbfefefc3977f24839216, 0x63c4d7e54747fb5b0551306388109484cf890b0d716f5f84992d817ba39640c)),
  (true, (0x74fd8308c54f98c928eaaa3e76745e3abf28938458074c9eb4daa72d1a62f0, 0x116b35f160eeca38c4b3594d7afda5761f8bce12485450faed2649031d13fe08)),
  (false, (0x28e67c24e2ed792a0ba7760875d944e9c9c1cec3de97512d11f911c706a5457d, 0x1427e27c5261f7d481700b63f4fb91b93bae48342144b2ad4a30f457e1f533a8)),
  (true, (0x158da040721805d513aa07762fc095568ce71ba0f1125dd2df2433f97ad096d0, 0x2ab93abf293b5bba45a8c648fdc04249d2bbbf4314f91942de86383bc8e0b54a)),
  (false, (0x5c5b40cf4a299eebcd6045fd53dd884436be214c7c7826bd66080c016e15b1b, 0xf9137c5a932ecb3b5e723fa9c604e9d9123921e8c475c258c25d61fb0395243)),
  (true, (0x2cb7b7d85b24f52b66f54a355d9fe0adbace91a0b698507bfa9c7f3800df42bb, 0xfa986f3223405e1220c458dd6ea391752c56529c61bc25dbf377b798d173a67)),
  (false, (0x29987b6d7072446afc2accac23247a0678e6d1ec5f97d3e9ab4f681fbf2c1408, 0x2bcf9b7d843084053a7afb8bfc7ed4197bf41da7fdee6a12bfb2ffbadb61dc43)),
  (false, (0x1dbc5dfd4b5b4171254ec6ea38642f128a49898924dfb31e6f3914c565679d2, 0x1087957a3afa9c48f47e5e1cc3314626b5a279826f54dc5b544adf3784871cae)),
  (false, (0x1cacba928e61ab77ac0e3e1a3e4eb16f48fd86bb6f6961d8cdf239450b920a7e, 0x2037cfbf3dc0dbf285bea1c51049a43d2429fc8507a5ea5e2bee82a1240106d9)),
  (false, (0x28662fc4c3dccbe431fadf24fca53e85d31d30a692e8295dab6dc5307bc85067, 0x1619bfb68ce7ceff4c83455bde4a39197508358b2fb69dcb3ec4029a661952f7)),
  (false, (0x27e6e1e6fa0bf7b51ebab10300ad0e79463d6e8b0662c3a484fd4f2b11ed4597, 0x191c168195311d3fefaa154579025fe26e9d6d966e9e9a27b1192ba8dd15f0c2)),
  (false, (0x21948428fccf1ee26337219b71136bcba24f8aaa9c5f2f51ac88373a71489bf7, 0x8b99f74f97e48f0b829884505b5de20c0f7505466dad1f612cb73f89b9dc378)),
  (false, (0x43ad37c0d1bb3f573b9412cfd73fab07b508419c24bfd1111d380b5a878533d, 0x11c5de499747866f8f3052c90944a179d2f83d18fa8a02c735040f8f1f7c44c0)),
  (false, (0x2dd8a098e341d1cd83c76fb3e3f473fe6e078aa1bbfca97dee1edfa93b252fb1, 0x194c04a52d4ce6e47450be791db0b23094b8d0a71103a6eb5a9bb16792f3d5e4)),
  (false, (0x1592362b3d4ad407de713a4e7b039972aa095d8de0a72bcdc15a57e117f67769, 0x7928a9b55ca107eea1aee93e13155712cbd0d45032faed1f08bd0400b05d5e3)),
  (false, (0x863d1562a37d4bae336ebd274fa06eac0997d39f7bcd0af8af64ba581097eef, 0x83a859cab46102900a71decd6ab1b3e1943cef62f446e1c51d44ff8cb053220)),
  (false, (0x17cc2ed6ec4f7f3b7a4d18ff936d8b8f6c9b71d499e49f7909127d61166fd79d, 0x115dc1830d0d7ff7c09c2e9534ae2b1c7073135f3b31e8bb3d82b75b08b42864)),
  (false, (0x2019bb5ca0f58918c64c81547d1e485110a5858850aadb53d9b5fe4a26f1f20, 0x13e99d71591dd217c2982c2aa8ba35d27050b7610ab878879083b6048950cf3f)),
  (false, (0x2272ec1fb4db09ee0a3a9bc9ceeb94bf7dc5d69b5d0ade2d76f289237a609a29, 0x1b156c4b811513e26c19d4c037a4805ca8e7e67ce910051ae7d73637bb60bbca)),
  (false, (0x94f3e0a7161c251a91e10eae746f15da1cfd93cdf663755ed515c8eb70fb23c, 0x16874cb1c58c7086fb2c1f39d7fb3ac8893d6a4e23c9b3f5b9d2c0e6fb4400d1)),
  (false, (0x1e3091985c27cb644f36b8f8dbebeeb155367e7816411c0e45c2adfe43af0a27, 0x1d63626d222293adc8514bec7aabb23d14915448d593cfe1a5011a276f9dae87)),
  (false, (0x2e9ee676b92c633e1b102c1709ca93213caf3a459752e20c652dbc1a0a355b6a, 0x9f284e031ecaf4192a06800c76f2a7e982f435d819d76599bd674c98d5ca8fe)),
  (false, (0x91551ba851331279fce0a446fca2f5dddb700c0f781c3b7f930f45466031c1d, 0xd3fee55d3691d3d8351be0706f5da8683d01498e3838a3c49d73f206ec4e013)),
  (false, (0x19f5445003a64f57e84c65e2331aa671b15b196ff8a02658ec86207456b025ec, 0x128046c48990ac6c2c6c0c7c17f351d062f0765e0eeb87e7db7e03c975c5afbc)),
  (false, (0x19fc19818c4b186de108f96aec082c16601dc00dbe7690bbc9491441e379de6a, 0x16e004cb50c8146146886395f42e60f84c00a2d1bf5886329cb4d82995fc9bba)),
  (false, (0x29f691913f9ccd9d3206f552d5d29d5c6b294a90e747a4eeb231dc48f9b66369, 0x159ce5737787bcd5785a7e3df27376b679fe598158f548d66e232507e016c481)),
  (false, (0x2eeb613edf607e7ff3681be44c8796514e84c7c29171c993e0148d2522a33180, 0x264201a7cfb2fbf309d583a2256269274993393087effa93805bf2b11077d45b)),
  (false, (0x1158c2ceaa4b0450f2c9afa734b3a8e06aa7579b813a4bc5c13bdeda0cbd8144, 0x8fa4185b4c4f0c4ecb8f40bd7c04f8b47ae451cbc020e9b04f111881a579434)),
  (false, (0x247ea00710ee0a75bbc93acd452f38e6dab7b86f1979a737c2df5b116c86e14e, 0xf060e405767856e48e847400d4216e8918cfe946fcadca5b71d2a7f0c29d1ea)),
  (false, (0x23f20ad65ab97b4e09080eaeef1623e245bb6e8a3536388a6d75551dad2fabc8, 0x2d95a969cc94dfad0c95a042e13084c6ff8272e4f13483a47668359a580225cd)),
  (false, (0x2e47fd2b111c02d3049f3f0db6ee05b93d1a157a0fa41d52b425d1a027f1d0ed, 0x21cb69be543e9297bcdbac8c7e6567601c460eb973f4f1b5c1a91686a21cc0dd)),
  (false, (0x1d132aeacf106886b75028491cc314e703e04f89fab720ed4275781d4a794a6d, 0x1dea92b67bea32b3c1bd93b4e0810be7bf342852c5e77138091573fa79f5c427)),
  (false, (0x2425fe2eed6371fcd1857d59f210c351857b977fc93a2ce80d5a891f5340fb84, 0x1039ed82f709a8e4ffa0ad5faccbe42ccdcddb60cee6bc0511aba58fee08f113)),
  (false, (0x4e2c694cb9291f64401d0cfdd49b1f3dee68439ecbacc401e715dd935dde705, 0x2562f9c5312d5d1f6c1ae38ec9d3bf8bc78fa3d9c299bc99c727eba89ef01a71))]

/-- The slopes for `q - r`. -/
def g2CertQ : List (Bool × (ℕ × ℕ)) := [
  (false, (0x237db2935c4432bc98005e68cacde68a193b54e64d347301094edcbfa224d3d5, 0x124077e14a7d826a707c3ec1809ae9bafafa05dd6b4ba735fba44e801d415637)),
  (true, (0x6567a7f6972b7bbbfa13123614ecf9c4853249bb5ee22ba52a7ed0c533b7173, 0x899cb1e339f7582c42d7517ae6f59453eaf32c7cf422f26ac76a450359f819e)),
  (false, (0x1e2f561324ef44479ddfd61d289b65a9b4254476fc23a674d089e9cfdefb1db8, 0x94ff1987d19b62ccd852893796296e4d1ed330f67a6a9e31f6975b220642ea)),
  (false, (0x21bd26686de101ccb0d9366e58d0ef693073c35ba67a07e550fecbfc3168e38b, 0x16e9c4f4fa600e3b6c061bf10ca87f272b19ccacf616c4c6123f22beb856fd4c)),
  (true, (0x12077456721c7b443b1e9fe6ae4a97128f1fef127f67f5f350ec428021335c8b, 0xfd865aa8f8e82cdb4b50a4944dd38b2dbb2dade2fad7eff994de7b13d62b309)),
  (false, (0x100a541662b9cd7c9767e27b02a8da37411a278718d630598e58bb5d0102b30e, 0x78a2afbf72317e7d49cce6abd50b574f31c2d72004ca7313df2e168e7e5ea70)),
  (true, (0x11c87c485b9de360a9269a961d8a1fbbaa009fd6aeb24cd7668d16d6946bd4e8, 0x2b5f882be3057397224edff6ada0dbc1c5125326ab33d45922e383b2abeacac7)),
  (false, (0x421bb6b5d364c18a5bff685bca599e7695edee30d50f112d3647a1b85f28ab8, 0xcae9a6a3fe9a5c4e5d5d685d60fdc9a3767c57d6fe27864d21623f48e03db94)),
  (true, (0x174a7a8b4a2a34288f6c9e117a571e883d04b35ed6812298a0d235ca693695ef, 0x135d18449613b9bd5ddce34bb0281cb1c50cba43372d0a66f27bf8c3394dc6ee)),
  (false, (0x19dd3265fb0f740c954b45f11569ee06dca9daa54aae1bb036904f9bf83e3422, 0x19dd2ee2525d6468b60abbfd14bc654640df480f8d0c872d2c1bc3c9f2e5bcfd)),
  (true, (0x2e02b2f688d511a1bf9c9ca4abb0fc5e8ede30fe2f325e6b9c7d517ce8506a8, 0x248404add78d5f7eeae5a5eb8d3bdc2694275d49dfdb33dfc745df28fcf0a01e)),
  (false, (0x19d424be7cb204addea56f4be9513db47012242d092d3ece6321c97f641e4522, 0x27941ca90c2efd44607d3b560e2665e7fe6bbaa92cdb991b7e75ce93f16e190b)),
  (false, (0x228931dadf07c4108c067fbbd786a9b4bd3aa0f6b3b84e7600866a2fff0b7f51, 0x2858166226f6b1246499fde54dea7a8dfb6dfd5947aea77d7b935ad6d913f93d)),
  (true, (0x31c5f95e49c839511cf533a6fb4afc41429168a0ed6505de0a7a0559d97a044, 0x439195c6c3b338824bc8683d85c241d8e37ccd4e13cf2e9ecbb2b4067fc55a5)),
  (false, (0x11a7d74141e1134d57c1eef60ed0efadd123781f4c9cc3aa8cf0aa48a25cd7e4, 0x20d82377dfdc46e36c1f5b82b4e41c8e835ad827b64968dc7befd9f4104d158e)),
  (false, (0x11383d21bd9f17403eb6a0b7df8af97dd3af9a0f645eda8a4455deae16681c94, 0x26dc560dba78835ba54b0b87774bab22290db14d46dc3fdbe7ec41caeb829511)),
  (false, (0x1deb70d3db6808d575bcc3c39d580060667574bb03d1e00ab7a5ba663cf6e7d4, 0x1e581f147910ac75636df4c55c9ca396fe85f98a354e05e741a5c084a9bb3290)),
  (true, (0x28b4cd00762c1bd0a9c3ad41eefbcd85a181bcbaf717171337e356326c4d2b9b, 0x16e3eb40bf87595ddc11e189fbb59ebb1f095284ece250a6cc42c1b01c5659ea)),
  (false, (0xaf9ce24d7e990e363b94000e67d308a9c23d3d49d5cde117663ba1f726b2f37, 0x2a2a53e57b91c97eb679b61823637b79dc9b4d08c1a8893bfd6941311aa3c5b9)),
  (true, (0x134afb8e65f3d23be0908b1e619e5afdb22b5c249cb7b10e28ae9ce0d6c29ad9, 0x8cd4d43abe64ec42e8585014d85f492c23a8f3574c75b76d5ed4ea2dd937533)),
  (false, (0x2e4e0f7f8c50f6ea9257f4fbe0508e81aa468b15fdeeb677c5339a7fcd83b858, 0x2e6a641983e83d988607497186a6ce76a938ccb005081515b5f8f24cd24472a1)),
  (false, (0x12a52145b8c14f3ac41ad6dc8560aae681a0d7a23a4563a12c5a51faa5d5f460, 0x268551d841fc13f976770a8f7b469027d100ea49e02da1bfad6fe4443cc21f49)),
  (true, (0x2b825b12d32031f5c4aa83f4569831efc284dacd757796d6af3109abf1301680, 0x147a8058abce820d67054aa465c95c7dbbf82ff95a4b06f184f4309a7f6753e4)),
  (false, (0x2f33ca62ac1353efd53d164b71af52bc399b4150f503a4bab121075cce9eb8c2, 0x23eef55afe1075db8799013fe8fb68d88ef8bc94e98f59eb8336dc36408a8dfd)),
  (true, (0xba281c395553229689249d540fdc09dfde15c5b5d1ee4d85795d8e4ac2314d6, 0x1caa624f58d7bd73f38ff0d075128c2f0b9c1c72cfdde91ff5964d45ffd275f2)),
  (false, (0x116aaec575f4cca37bf452a9e1b11b618950e5df4acb16402e61ec1e26ea1490, 0x2a5db77bcff5c91380e558f9f1a9d6d17d9819fd48f879827069bfde975398c8)),
  (false, (0xea11e00ea4b4e03b9e3a5accce3cd0d81508c79d82b9dc7e076813e081f3b86, 0x2fed25ccd92015edddd344fd3456be574549b751651492d3a71df04ff7fb84d)),
  (false, (0x2390a8ea74cbcaede571faaa6c1740121ee55d0ee670b6959781a25facf1e8ee, 0xcfbc0f0dba94de8ff750649ca6f5ff0ce4db206d2b87026c7b1dbadf20de069)),
  (false, (0x95caa4de93fa9b6fa69e8982fa768914e83ad043ac969790f250cc40fe6a151, 0x2a88bd6178a65c6b6e2bcaeaa52c49bf767e71ae1bbf3e86145ac937b271a420)),
  (false, (0x17bc977833f4db313409ff3aaf164b8b84c667a0af71b648f19b69db647db47c, 0xc6faefb94e616ff6662b1e1c011db743871d842423236c1aff774702d37173f)),
  (false, (0x2ceff3524cc400afdeab48e3e87b239d41d36aecb390c8be529e7eb93c56424c, 0xf8a3944ed034695315da6c611d8cdd6f41979bf10b486be4f0521d974c6d3c5)),
  (true, (0x27bb9d1ab4b8b3c75b12c0ee7c5a41490b5067f4428b4c25195626c9e6aa2c19, 0x2f724de491a49cbaeda02517cacab26ad844ec8fac872118c6d686a7ae0e4be5)),
  (false, (0x1b39e2c29c163f0b9d25f2fe6b72ba4dd0b195b6f2c99c45c34d103d25caeae1, 0x81f8641e14650c36e24c6ef913e10aaa8280401d15cba96b31e29240169e007)),
  (false, (0x144dd37ff205c3c034210a0e095ef9ffceb321c1cd4ed29258463fc44b1614ad, 0x66d7677af120e12a6ac94bbc25317b100a3c91f450685ad68589897b689b6a7)),
  (false, (0x259e237896969e4669946a20f072a518b94e613196509552f15ae35783bfce8c, 0x219b9012edc7a37ec365a27a40dedcaae23542347db3a1818fbb905617027e8e)),
  (true, (0xa9a06b65db2dd4574850f2904642641f4832d4aff0c7d99eb7ec8ac2541923d, 0xdec90ca4e70ad5a558e52d619bef8354a095ba7100529909c96d71f5a7d5f0c)),
  (false, (0xfdd4ee3d55218f3c7a9a0898e440f094c2495acd340d5a07672f87c979f1790, 0x2cff5c90c3aae1416276ee3a8f48a135f9c6c42c03a038b45d050794b7e782dc)),
  (false, (0x11e9f71336c20d66039ab74ab0789c8bd4639d15db19e8cba8f8ba59f1519c3d, 0x13d6396630ef6639d06188de69ef79b2cc426c4907df26e3f75ed0d2b5c466cf)),
  (false, (0x19eadf267836b1a9c0d5e63dc579d8d85548706761015cdb0ad9a74696a7a396, 0x13f523167e2fac67dd18ae4297dccd5916efd755af0a9e3d07ddec3993bd5116)),
  (true, (0xecbaddb13e92bd47f58c76d1a471c860ae4cee2d171db8f64d7a74d412f983, 0x138526066f56159db929995d63deb46298c7a729e26131a68b7131904275af5b)),
  (false, (0xb5841c7c02072d7f930efd61407ef72138f0fe5e42b474d791922cf2d818e5b, 0x1f8179b247e745e980ed169391f8ca461b9f629330ea8bfc81fc1d9e4c8d4cba)),
  (false, (0x1727eb084722fe7bb6ece6da60a8c659304e716d311f7614cca26d7b681c9836, 0x9bae746f3e91a78548645d603bb1b754980d6991dec52d653e4d282d219f5f8)),
  (false, (0x1ef1de5a621e9fe3d9fbf926a1b171b5327d4bfb905ef2d81c0cfbcb0cafda0e, 0x1dbff90c0f2a788d848ca45d04b70a0b85b9f88708b0c43e628c9b85ea89bc21)),
  (false, (0x29156693cec42c6668b2e1c065a4d55e103c275ebd8a6214b4a1a88b3dad435, 0x2ccb4b31136bf068bbf8d40caf307ebf1cd1aa700d0fcf449155e3ecacce843f)),
  (true, (0x1549b7cd0eaee50557b09c47dbf58883b56591dd57d635419d48d57f91388718, 0x162b7f5a34337d509276f71055f37255b0bd39c4350f925f3d166472038b2525)),
  (false, (0x1c73923c72bfae5d1de76808cc3dfff4acea79b73cf55fb7dd1dd1e1b0cb1f06, 0x17c9e8a2fdf3beead2b67cca7c83c49f5afec96d6e887ef95dbc35436d6095da)),
  (true, (0x1356f41817535fbe82976ff9ceb35b3181a3b4d33d61d3c5b835a9dfb26a554, 0xb6779958a1f406f47d7971ba1ed70c016fc627671139f6bb05f46b8dcbd94ee)),
  (false, (0x21cf5658f90199c464def82b0c06224d605a27c8ecfa45fcbb886e6d21028560, 0xf29965c9c2389d24a4b9d6d15fdcd11eb96be8b9ea1232e761e7980f6468213)),
  (true, (0x2394cfb50998b3ac46ed32b90356069bffa2de96701b18878a7d2141944d014a, 0x118aea1974ea0604d9e9ef6c26be04dc9b8257d452e731910453839fc26c773b)),
  (false, (0x807afd4a44072fa9eaca908ea6466ea9b6d8bb0ea38a4861a56663cce1a3713, 0x10334d96558226a3d4cff3905ee1cdeae9de047a096953c22c64ce9583857ba3)),
  (false, (0x2059df3132cb56c042df13f9dc9e45bfe76195966e9b959258d52c58d87fef8e, 0x5acb79d5bfc32d36062b7cf0bd09f60f2e2a8bbe3f16dc794503766215fba35)),
  (true, (0x1306fdb058f273c21fca19357068a55d29d8702f2263bc440fe5446c2052393f, 0x8445420b2180fa24ad40c1ba6766c99779e2728524432f53d425d9272c44143)),
  (false, (0x2f3773bd7b86211eb49cfe8a7f225e07b14948440f9b1222ba0f4b442cf7101e, 0x65de85eee5b9a71668dd9992bd5103228b17d39703ed4aff16e1581e3c893fb)),
  (true, (0xe6a6e939e22f35c527e8edf170b8b7548a18b2e1b0bb28787eaf772468182a4, 0x2343dcad07d8c0d6bbeeb91a3e8a54566a300f77a73b3294941b5a40e06f0917)),
  (false, (0x2039926fa827168ec05927665bed366a9b41e751a2f94c1104ecdc91756eb82e, 0x305277ac85ea8e7b8e001888e59ab341dc6d7d7b6ead3ba331341d4bcd0573be)),
  (true, (0x2f59de3e25b2873dc043f0de44db6bf04cad76d00b4da8b72cd723db8019b9db, 0x1d5319161cf8683f57a139d0508b7889cf1e7674c0d89f0715d51b24255df08e)),
  (false, (0xf4fad7fb458d9d75aa3868c23d6ba1091523fc7fea62bd52c697d21552f4cd5, 0x1e52fe737f0532b9786abe9d8e869fc40786c89c02c0f3a9eba6f32cfb9b380d)),
  (false, (0x13415d0b79ab33deddff768dfa863a48b23efa8492c42a22fd7470120838e5b9, 0xed4c0312f93c882397ca4caee0caa0769579342e96bf32a3dd91e8f40595ae5)),
  (true, (0x142a89c4bafe645ab9f215127aef002167ff0939d85a9bcaac6e076d2c1f76a9, 0x82558eacea9fe3f1eaf517c0c9b43af534af4ab8269db5e018d6725fbe22fdf)),
  (false, (0x18a2f40321d9744b212e6d414a2ad64aa72cd0717ca7817f8bea6cbe72cebcb, 0x2b966022fc0cbc94e66a1df57d2be273c880c20ffdbc84ea0c594d9c584fd823)),
  (false, (0x4a19216db57af23893083741b9c4f5ccd97898532921ff4835018c25888652, 0x10d1b3f8ac4cb8be7d1af3e972f7815b8beff876742be204b100840bcba50fab)),
  (true, (0x2831f62334066ba4fc359fafa0cf0cfadd91a7c493a63d7835946f62254acb38, 0x14c3150131a7d3f93b0f8a7c0388fc7ce565628b7dfc32f50b57c535a6e0de6b)),
  (false, (0x1caa0f8578e9c73b1eee504ae2c59f7db4c7beb55fdcb38cf9eebe96dd679c7a, 0x2f622022e38d43078fd6164aedd36af15b14dbc5c69393bec18bd508a272d203)),
  (true, (0x1bfe065ab4b4ccfe1d3886787b06d13d962e068aa908c7e5d3b985706be850f1, 0x1bee8842a3ed732654e1f347af5c9a438f64eca1181cd77f919222cde9a030c)),
  (false, (0x1337abd28601e0969741bd79bb24003a9a70be75bbedff376c8d11cc829f0524, 0x1590f845a8461031527d57c2bdc3f300927e56be4558a52600baf7994346cbf8)),
  (true, (0x11eb675a411499f559e5c37238777f58037856d56ca5e184e3ec79286028fb35, 0x13a94f7e8c5f13f408f0f4e0f475d777e553dff5b3cd04f6abc8293e7aeba729)),
  (false, (0xde91e8f89e6272ed1ff840e9471750c3afcddeb2cfef9fa45642a42d95c595c, 0x870e6c715684d9125356114967b942d6d111d07df4e7f30fed55173471fbf0a)),
  (false, (0x283ad54ef26251e393799fb1476c316213db38acffe8612b49d16af855d8c02, 0x23f871b9dc40424aad4bf23f0a0e6a2aa5b9afa5a4352fe38ec1c37bf505e405)),
  (false, (0x16ee040672620c0a6f89eb0a64355a2058bf7e52bc2d32ba96b9d51b67a847ec, 0x1a673ba02df973a316e0708c85cf87c75d5a70757cb327a95e184b47837181b6)),
  (false, (0x23a7d65347685788e125172a3747c931a04fb6290eb0e2d7d97b44cd991b5e96, 0x1588c93f8134abe591f324374539e9dbb584de23d6bb3d368d9761d31732b228)),
  (false, (0x131e4d22afa055a3ac9b00b4e5f68b56155a6fd6c9d1f8c9ecf1d629fcc68118, 0x760d52d20b5716e23b98cd061d5eb1d1f6c0f3b560703307f11ab4fbb38f917)),
  (true, (0x2e40470bb3e8ef53431265f26c73dd71bf908a15e2b06f30bcdaeb12f658c136, 0xf3597d22324a02fe7c4a818f8d5e788937ab90d3089f5b6204446c02cb1a8d1)),
  (false, (0x1929e8c82d824b7582ee43e68c68cee5139668b825d3f680271249b0721feb5f, 0x1dd622934ca9af473a7ed349b0eccb252f5aab841434d10c923649ef3afe5ff)),
  (false, (0x13fa2813e810655bb227b2f633e0c78a4b838ee3f07a734da1ce55bd2ea196f3, 0xf4a04105e1f421773665317d20b37e465b24c6a17bdd02008a0a31791395501)),
  (true, (0xf7601cc038c4255a5f787f28e31135742d7b1e0771c9bfc124a1b26efb21b3a, 0x2dd15ca5a972048d2bb9f844d81510bab0a4841200f46273f4db9b684726343d)),
  (false, (0x5c717b47b293915c1762f0528776d999d8b217933af3d26f4aaa4f5eba7a4b8, 0x2dd867dabf2893df4b65fb7b0c6589536e6102a3736246492c8288d37e6a09a8)),
  (true, (0x283755199c57fabc969d35eec89fcb9f632bffa24af4f8814aa9c5632390ee44, 0x26c95359590c71408d49668bd317f75cf7cba86ee8c27a81bf901ac03a876fb1)),
  (false, (0x960e59894de8cc4420eb4f3ede9bf4900c938a9a122a2cf0f941f3de84ac6c6, 0x18c9175a04a27a916716f7cc7cfcb3a38d4ab90b09ea28a29b3eb7434edb9182)),
  (false, (0x1eef6bfb4d5e16b6549433c95c0837f50d800fb20745740a916f3cc8f156a06, 0xa6e62adc389c2af380e0309f2d58f3b349aaa6d08a86072a1c05dd9ed8e66a)),
  (false, (0x29d2d12b63931f84838fd7d5179e9ec3e950a28b390d08ba81e24b471bffada2, 0x22d0727732d06c74f551cdf3ef3febcb527687eb3024aff2c6ba8a5bf94f01f6)),
  (true, (0x2139032a9ce4a2a6208b547c306ee1402c591361b32b58a371c2c83b2b2706a8, 0xe5662572d92794ec0bd09ff5f5ccc7392b97045073589f1696e737778093d58)),
  (false, (0x1a963bcb67f13596b70d2bb9502123fb05d7135291ab194c3009a6cc5fd5614a, 0x1b16bfd4fbf706a636833f2de9747613f572d4e1d947bf0aaacbb1c872707010)),
  (true, (0xbf01a9cf62ec87ed5fa70bf2caf5c73d2fac8439b58889af88c078b7172b20d, 0x2d2863295aa435f453e6e39f82f00816999016555c1ef138321fa46cd05427ba)),
  (false, (0x12bbe30428bc3076c4c876ccb52062bac7217a7227922875918b3f7f5da393f, 0x1ace1b0b3dad0f22f1c309943c6aea35214804942a4f97fe0a3959e1d3b3ec91)),
  (true, (0xa3ab7ed9035b61861d9f9bef0fb10483f96ea10addcb7fd9faed1bd294ad03c, 0x24571d04b870935128ca176968470e7178be78f930bb24c0429535c3489f6aa8)),
  (false, (0x19e4f7091099c3ea12b67d79c5baa3abf49c02bf2cd5112ed035118bc0fd9758, 0x30320a28f04d1f507fe4c8e1b6d3b2d277c9c71be8f33232d951963364811065)),
  (true, (0xc4f6bb10c1f8a9466d42c026fdaab530b0c431edd17153bd6a6e9cd39b8faf2, 0x16438e181fc883db01328157b326dab3c3559bf0cf786a00aa82e844f8c308c9)),
  (false, (0x1c6668048da43a18aa2c4f998750e0eebb611e4529bbad1c2d3fb7f35d8980d9, 0x174f18edda2976ecd6b4558f02afe436473adedd415ed74bc2bcb0c9775d00db)),
  (true, (0x3219d18a6b7724debcd6655a08f6ac18f43ec8587d183d1af06a186837afea5, 0x16e84acfb14e1ece477a7f82876ef8db30f5a9704bb4674c86c6ac0c11cfd2b1)),
  (false, (0x165eb304881b7fe7fabdea06c74c15f9939ba55b1f2e437601f63365a6dba4f7, 0x113a181bf38f85fd1153e84b8fde1621d48be8d35316b035a1714672384cc8ca)),
  (true, (0x3f0c76e3d3d3a1ce8c48b94046426040c6f2971f1b66cd4dbbd1a63e440e454, 0x2b7386848e54d679a0560c77603fed530f1709d9a7a0e8bf0b1d28a37deddbd0)),
  (false, (0x1d9acb49037250f8e6e7013305e28c3e23b1a300318b80e577e76caadb7fc804, 0x19ee97a6995a2e7aa26853b76832ee444f91a55f7792ee5c92ca3f93414a9e6b)),
  (false, (0x1daac51f19be333376d81773f0c10b22c4ce4d1369e9f8015cac22677d04ed9a, 0x1dc2ee825b534a0f3440dc148a39df88554fc1a231858ab4aff6a6a4e8ead90)),
  (true, (0x21353e2f37cfff9295100cca0cb2b3f4bbbbbfb006de5ba71d2b1fb3cbd942c7, 0x371a297f7a47a62451f7a186accf8bbf2d8ebc9fa9ef5ae2c0fac9e2b9c38c3)),
  (false, (0x1b51b35f280014299fa9ffdf3e91282876132991e9e6013d628b10236ecbda04, 0xb97b6b85e702eb7f5361afa3c0d35a490dddef83bfbfef6ac5976dac341004b)),
  (true, (0xaca56d9d27624565d8bb07c649c79402b734369e7073c920befdf1f403d558, 0x1b82d18ba4e2acfa16b9757d8b835acc4c7babdd7598cd8dfedf412fa21314c5)),
  (false, (0x6e79fd8a2e3013c5590a5b6c1f07d1dc6d21851f5ec1f1a891c662a03e92071, 0x123b902fb5d11e30fe744431097b622825a6aeda161d5062eddc1474e5852a85)),
  (true, (0x1817107ca651fa0d7556a073bf3f76d8bf8ec05cd36bd03cabe09e519132ae1c, 0x1b0ee7d66125fdb1f74bd7c062200d04679480a886d9a48805f53feb31e7c8fb)),
  (false, (0x141c17720c11e92d567180f121495a89c216e80021a5707c6b1b85206c865abb, 0x14d28d0c83f494f6b189e154bf4f70cfa08ac1a1119491daf1ce47b5ab6b4ef9)),
  (true, (0x1a2d76a4769f493624f481b9993f1244ae9465a3edba1b7bb7db9aa7cc745ec2, 0x16ffbc0b767bb217cc31feae8cc4f0e001c4cd96b73b249f0dbe1e0aa9c32e16)),
  (false, (0x877eba5fb58291253b157e287253783f0e673da56ded4692cec54c8f117e5b4, 0x2bc43b85691ad87b46ca12d3b46fae0ff7731348504c39d12038ec3b882b9028)),
  (true, (0x2e47b367c5b06fbe85c3cacdb133cb6022b3b2ad1dc99a60d79aa59c4e4ce3a0, 0x123179753f76d8198c6c4c9d49c2efd01da5e4aab5ea253e687b3161f8c72c55)),
  (false, (0x3f1f0c54328b7acff50c4abeddb32416d3ec60cc312fb928d2518b7bfdb1418, 0x1b4a3a29db0694f5f6ebb4f172ccd92600d739f8ad1915965ab0f15555d5cd8c)),
  (true, (0x2585cf91a1e9f847294e36f2ed72cee86e23187ac0942fac35b54c68495da37f, 0x179a76e9b2c67922175c161fcda0cec843b152d7bf8e92025823b493ef923295)),
  (false, (0xb4402d9653403b86f68d1d53c1ff462611b5af0178632fc2e13c082dc5a40, 0x144f59b8c304ec13561a7d0df770331365130211a6416bb0b75e5945bfccb5ba)),
  (true, (0xff228a8d2f9f12d2f61a79d78ba8aaa562f8202ed2a97fd8944d7ff57428f40, 0x26cccfe575e1b558ff5fbd697f30a8638c5ed25f0ec7de65faf842ae22b343d3)),
  (false, (0x7a85cc30f0c0596e816f154f9fd42f879efd60d2c0c1d792702c103e7d32234, 0x2be6609b209a55129973646ea5fa8247fd197a26171c159d934375a92577f696)),
  (false, (0x24201d1a7856f5f916c422081a46c55028dd4f3edc2e604d53af68b766b6387, 0x22519e1af344de4e90c37129604221eb5b794fadf93db43256dd998f9c7c634d)),
  (false, (0x81a6ec1b6205097835ef54154e8746910db4346c04f53aac3b9058c0dad883a, 0x28413f07b98a05d7da2bb60a4a5168c4cb1eb28b395f7809c4ded862621ea6a6)),
  (false, (0xe7c4a4ba3e68a6ee763a67809a15e2f8b417d3adea0103d22fbb8e3efee1bce, 0x4559c486cf2f6a27fcb1011a971adcea8db241510e97c8e9ffccfbc463312f)),
  (false, (0x10bfea761d5c4bacbf96321698c12b67e042083228661c55cd2e13286e7b7b21, 0x198cebbf12f639a5a1ca71beacfa41c72d62362db5423f2ae07bb34887b3461e)),
  (false, (0x1b532bbefea68ea78539d31ad622ae776b0ca8d6bca7600affc3c8b2b05d1af, 0xb865ab0bc3f24e0c5fa5f25b413cc56936d63d6241bcc9246f56205e37df199)),
  (true, (0x234ef389f5cb4c9dd400b4a40022fae87b281ad603e67365e7e98cb249cc18d4, 0x1cd04d848b17114cf34bcb077e186248d63ccee6ca21a5f7e2e506f48a515d04)),
  (false, (0x28a1d61903d38d0ec4ca27fc9a784eb8352d9bb83d0f8a30e0f6e269ef77d2cc, 0x1a574757572fb1ae126120d4d96d062a633fa5c6809f2b23d9d58246ca7f5ec6)),
  (true, (0x10807d7aea9d84e0d5547ecdb9d392c01d8f884f698f7a7f53d5da5abb10cc1c, 0x2b8cfb0d4bc94d93003f1705c60bc7861534d63714d80116292cf0c0525df4cb)),
  (false, (0x1c3119c9aa28c041cfe04eef720a72b76f44c19e8295e2c2d22e9090aae92eaa, 0x17a82a918efaba1890ada79f3cbffdcbd0791493dcee5e7c081a5bf449f1dff5)),
  (true, (0x1763b9a74c43d69acbeeb3ceb779dd98b444d68364794ff9f70327827942439e, 0x71f8ce5484d38b652d41015824093ec3800059a215c52a35036085f522a3ecd)),
  (false, (0x17fe8187a0c6d0c6b75f7e6f0c670cf9d0c162320bd65e5fafd711c5a0ac0076, 0xb98387e9ca8598f79f3fcc235324bfaa4cd49edd807621e6fe9022f429a2b08)),
  (true, (0x15dfefdf0b420cefe8f5c0a9eb2046f5c8de4dbbc3c314e3a41d8866cf263d2d, 0x3007668954707468c52f8a06d1240fee32ce6fa4bc86b2dcf2f8a972ae23d077)),
  (false, (0xcf7084a76ddd05e98a70df11c579f60889f23da2fdbf63c3884cd969d444f6d, 0x26c7e7ef817a737393affd60e978b2f8593e6a6bebec547a7c2c0f2aaf428fcf)),
  (true, (0x20f6b5830af945137de3fa6e35078aa4d2ac2a56ab6ea2d54257d9f86b756c69, 0xce7c3c763b628483b013609d683c1df8ea6daac763e05337eeb64addec1df68)),
  (false, (0x2830417025e6d922538d5e56e85ddd0dbe67b6616a21636a027066b83e0073c7, 0x289a9608bbad4d7bb0c0ed5714ca28225feb2b4c932babc2bab8744bb4f6997e)),
  (false, (0x91ae15028f251a8b9cea678fc9ee55337c5c92a4d6e3924f3ea45485152d2b4, 0x272682c6e54117f2fed608dd2daa307b75830fd2636c19759e94387bba739ae4)),
  (true, (0x166e33ef008a6b3f8cad87b3751aa355ade70609ec352a2231e2d547b4b8949e, 0xc33185bc6ca57022456dc6223a94a0ebc98fe0cdf5eebc84f12d2feba09261c)),
  (false, (0x43fd9b8a8d7ef2ee753a563cbf40403faea8ca8cbae9c68eaeba809379fe1cc, 0x2ab7479d3e42c29a967101fc6184cf95abc97be3af57039ed7cad832f2d77699)),
  (false, (0x21efdd8d33d5461db38d80b6b4e7813b8cd577e8eaac971ffa2e5f4e96c00871, 0xfd1fdb01a9388f2f080b776655371edd9d804b6965f8769ed0fcd0e0e75a830)),
  (false, (0x2c7cf613e6b9556bfbbf44af123674e0141147da44bea5ba3649a0c43a91546b, 0x2722e89fd1a11b003be87a651c5fd8b5c3a0c0e4cebbb640e669976ef5e226cd)),
  (true, (0x286eed87f638cceb6d688994af37f998c88e08e56df2c6a7a66698d92822cdfc, 0x2efce66dfbdf9352548c415c36c1f03a181bb4f207203505a6bc95c7663d82e7)),
  (false, (0x80a19895c1045f04f06c47c978842a9d4d1bd6aa67bcf4a20d0323741034b8d, 0x251a6b583747daecb3d84c23613c37b45aa58690b6b313524467d6d9f8d63369)),
  (false, (0x40da8acb2903c1b6c4fe57ee14fb2f2adbb8102f23b9ff2998ae19fe64ba920, 0x1a9fc209ae1b0d9db574e3e90b9766c0b9ba821a56dd43d71922b864fb853820)),
  (true, (0x284c28a1f415b9aed5563301fc4e6e51e93e3ef01d95ef823673247bec14991a, 0x8def10bf52f7a505b1bb033dbb263bd468e5a9d1180bdfb278cd3f19c51f464)),
  (false, (0x283f5d40568e7207bcc3463bb9180c10b6d4e321b2869f35fc058dae5ecf1a24, 0x269d0454681f452974f84938d71715432a1465fe91fff1f3024024e45911a2f1)),
  (true, (0x1283bfdff6ea62b5db37a74e3ab00af8ca6c401e99f9cc5b48144e4f7d80519c, 0x6d3ca7f3d46e640c88a8d0d8c82a104818d466a4132f6d786b8fe77f8c88377)),
  (false, (0x1091868501f084efe551f9e59cfa8644b4abf7cb21aaf1d749459f1483b65277, 0x2ad0e575a595f6dbe1b5a0e8d45ff191a2e3ff6bfa46bfdbf9a092e7b746f950)),
  (false, (0x24263225aff5f8df714bbf8ca9b5733dd6d4aa0ed96ff20bf72b6eff05b063dd, 0x326508f15f6af94a181c6cfa0efe34593e00fe72cd1e2b9c9bc4792306b649f)),
  (true, (0xf52a2f11ed5fe568785614fa0d5219570d2a6617ea6ad9e20c462fcaf053e08, 0x38053ac78b5c74830440e24a5df837322d0695b829fdd58032c4f075b5c4f84)),
  (false, (0x2121142d0e39ca6a0a8b6d8ff822f7d69a81860a9eda27819b952745892514b8, 0x111322f1b241ed04bc038df6946bb58995e0d26ba398d363a4512827e34a6574)),
  (false, (0x2ad22bcf330d4cfd3ab3d7b8d6afda7f37b954466be3a6f16d05c25c63a4e01f, 0x2250c1d4da70a42c437ca5fb7c713f1295741c4ba782bcdf17e70ad95a64a12)),
  (false, (0xecedf25e620886c291fd169b3a26a9ba6b4cfad8dd12c54223675dfdd7e629f, 0x23ecfd6af3beb97d6e9e628cfe8d6c7285222f1e85663e66edd673f250dfe48)),
  (false, (0x253e3f8933df72bd3882be9ebb7cc7d3fa6d73f6c6ba1ed1177af94ea76a06e1, 0x9c0980afa3c004a173b4c2a37e6d39b314f32f35890d03ed7f465f82858bf5a)),
  (false, (0x2e95e44d4b519ee77682dae858b2b8d38682bce00f2f9592ca66313e0b864366, 0x22e2dbdcc6d65c1d13eb5448b1ac5824ff4e025a376ee4ccf3739557a6b7f803)),
  (false, (0x1843cafe36bec23b0bc66398c330e15e49eaad2ecbcedd62a7bc78dd286a9543, 0x1d7fc38c58e0cdcb9939050e48330e0157eb10acb16ec051185529fe8b6ca467)),
  (true, (0x108648d47570290ab2b261dda8683e495706ae0cfd6b9dc35a650b7c59cd2997, 0x73f6b716c33543bb85bbd8fbe09a3079cebb987572c65ef18068f250f54301e)),
  (false, (0xa5cdeba4406b31ec70ad7bd6c81fd82fa61ee14c7ee13609f7e74564683d3ea, 0x17574dae74fa5a2005539b680578405fbfa4cf224e70ea35f2bf35eec355d315)),
  (false, (0xda90e8f01caf84ecc189e07959f7066ca978e830b97389fa138a7516b7c565f, 0x18117d66d46661821deb68a6b93f54e627a018907a8c683e47e33894adc1cffc)),
  (true, (0x236dfc97e945d5842eb4587c7463b905db4cc177c319815a993fc49174eb2717, 0xf011281d911382670421e97ba247bfc6c715bd333fd2a63c51fe71e23f07d61)),
  (false, (0xe9f33f593eac627adfdd43d2435b0a0b66da4ca8cb68fc81d366b4253c3c6a2, 0xb78ea9e84e430a7ab934f31808910693c4bea0a6af9e59484d29e3960744d64)),
  (true, (0x5df19ef71d84f5ee4051daeca0b2fcf6df63befb90a16579de5d7da8259ca02, 0x6a7a8d2b86b2e409e2911334a014847e87d548ab89337b7c9d0cda19fde1b4a)),
  (false, (0x5f099d103d1e376e278b39a4b59396762c6ac0294864564eacc018121c49ab6, 0x2425ad2fb71d7342a913a79d6a4a86e2d45fb8ea6171a497579f5ffcae4d9d9e)),
  (true, (0x18522ce016ea1fa07e50384a6579c9287888339a0e80b376dc229fd9966ddd68, 0x106ab0daf9622b1e43fac107b7b2bb9d83bc8ebf61ceea23b58f544a7122c16b)),
  (false, (0x1a676981133e7d2e2d4efbe002cc2df4761747ee93f1be4443b7c17660af3fc8, 0x2589896f01265877d810680f90f0462e8fe3399000824a49e5c6f741b6ee53d3)),
  (false, (0x1941d7b09984ae18f52c3a74815bab58f2312d643151037b320447cbc91cb109, 0xb1cce10651ca2e72a11aec1d07777fe92fde8115bc993a443370447520cd8ab)),
  (true, (0x2de20baf7114d2ad748ef82710a34da19f29ec8ccea5ed40d37420725577c5bf, 0x21057291aa7833dfde05a4ec9ba0cf2e6f8eaf99817e62770c1c3ee38b62f336)),
  (false, (0x266a1830957183174e94a43478d76946adaaf4c60c32ad772b5270bcb21d1f47, 0x165de867b351bbbe4a00036b5eb9c32ebf74def34fccf3dbb3052b950c2a47f4)),
  (false, (0x5778bb350ebfa7b3bce8add5493b1074d46e144cd381d59ea2f4e1ab250a1c5, 0xd598d83f3163098f16f57cd973cb922678f6fa39f70016cb22f4dc791447d18)),
  (false, (0x8e4a55d8dba26c35fe4eeb5b1a3c259a604ecb275ce0ea0cef079e96c10b06c, 0x1cbdafc240cc35f89b6ce6d11cdfa60510327fc4650b632710c2e513b6c2a74d)),
  (false, (0xe69e3d921653c78d6a860a39baa50308d0fd98ef6a17099436f1653c10422d, 0x179cf54b09d0724784c34b23e558c7a55955347b33fb02dc8b8d7713d4df2b6f)),
  (false, (0x301bb49266ccbfdccf13d7723b72a9b30ff9789c62c77d5bbf5f9e5297883569, 0x2326ef2403c9c97dea5833908a436186ec48eb9ef1e9592173b0ecd0a705671f)),
  (true, (0x3bfa51e499be6e8ca500d4eb91593ac8515e98504e3b864cd882fed00bcbbdf, 0x1c0e267c48771cdb37038f04aa58411db12d3b8837d91ec311f8c1b2e2d0668c)),
  (false, (0x5c12a6fbf76e999bb0aebf05840d909460c3206b8e95a33cfa2619b27609761, 0x913b6ed9600bab4bd5c637ab9e3e06dcfc82b01e93329a3477492bc789fa5d1)),
  (true, (0x8dc208fa504e9a31ef65a14b823952ef5a072fe183051317c4935bb21cf429c, 0x1953cb590ad31d9021bee3bfad655ff5df477e870ae9368efd143ddac457d7dc)),
  (false, (0x43425c9286ac05cba8723f84f29eaae748b00b07972bcd2dfa1d07534c0fd5, 0x2fe1dfd85a83f54c1dcf4a30040a9e247a58fc17b2b97ae72d65943fc1b8f328)),
  (true, (0x1d308bcdcf4e49217bae93f0bfc30602cfef4eaf5a7d13b58d8ee034c55b3be3, 0x26f0a3efe575c437c3481c051bfcf5f591fa5692e5c46b74d281c66d8dad9419)),
  (false, (0x2d502792efbc40734abc9103c79a5991869f85f99752b09e1aa2fc4d64f39add, 0x10547015d8436c8aecfea384a75ffe1755f13aa3fd6af6855d891709ea52caa2)),
  (true, (0x17f03115f3dae15edfd7704890084df9f5508a6342ddb015e89cf399805fd423, 0x261791212015b436440a0771c60be10cdcf4b0358d3e01ad2111fb21fdcfc1c5)),
  (false, (0x14ac220e4af9b8b842e81bb712a51bd03e18ac357521e4bc26855f95976a0fff, 0x28bc2e2aa748cefa2e99167be4242a6c6e947ccaa21680612ece261df902a1d5)),
  (true, (0x15d8d15727572870fe25710da53ea1287f98c65cea9c07016540419bd48b947b, 0x1400bc312b13d28d30acfa52a5e369b33f0dcf2f627d4c123aa44841c2ecc6bf)),
  (false, (0x1077058f1e4d589d1323c91fc907ef87c967a534136d2194e6ebdb6484d96116, 0x1bb704eebd0adbbe8d308779838af9a3d1dacc554536336c4e7b64d6e6a272ae)),
  (false, (0x301f04e1463a574d67b2929ec7cc0be53ae251da195dc50339b7c5769278c8f0, 0xa93f8ecd95ccfea31f45c87b172bddeeb8ab7b2ab5ac24663e3c7fda2867604)),
  (false, (0x9c1e71a25a9557b9fc20b0bef6180ef25fadde714c1dc78239f83ad90075dd4, 0xd4e81c6ebc738c25377024779a2e4828302707349b162b967fb7010c1df681d)),
  (true, (0x2abe380038912456d6e50d0f504ad19d2ed2a1568537116f7d706b887d9a0615, 0x1a9811be870b8e41f2914f56d41d631473f89df0d6f4ae1fa53f421d20285223)),
  (false, (0x55135c7477d8cdd74151814f101eb96150103322101112599701669d81e3fdd, 0x2d8d6ec96268b38e30f478c5737199aec314d4f5a7c23dad16d4e24b0feb9c2b)),
  (true, (0x2885518281baebeb74ef0bb880881e5e53dfff0f2264d36108682f4867b0ff79, 0x22355cf0301e6937aba16553c32572367fc07760a302a7a7ba7c36d06543dda)),
  (false, (0x2ec8805b9c5b17f9ee07a3b99899359c03ab91c5bac48b2ffd0bfbef0c77e1c3, 0xc9c6b6af4e37113ca3a2b7264025d3b8e4f2d16a304cca2a3f63cc98b5a244b)),
  (true, (0x1a4b43615c5bc15e2ea177253d03396514e1487a6cef4d49bd2156f869dd2883, 0xe6577afec2f895882ee1fbf8cc3d10a2cd66f0ec8ef99c5d1f5d35d0ba7a932)),
  (false, (0x27ed1226189b291ae08664656e98381a609c3db8d4b244ffa56a711941fddd01, 0x172dd61e47b5a508556c1dd1f9595adec3b97e7b1ed9387d17d6953d7dde0b48)),
  (true, (0x265f7cad9059aee5fe5d6d133c3b5c2758df75a3c59f02b1ff78a0494367a846, 0x8b52987d3a6ec476a9ea639f14642409f2a5ee3f8d0e10eb9766404431180df)),
  (false, (0x8dfc664f579dd6f1af1b1b4b30de55f23e065a77905d71076e1bec8093d7db4, 0x19bedf61f8137be3e0ffce724ef5ed92b6fe12d7a3c85e171cb62aa9dbbd9ce2)),
  (true, (0x2c2b9339004038a35d645055f5437eb8fedcbacb4353da0addda71c948ff3dd4, 0x296c83ef7e3eadc7fa98c2dfbc9f9a2cfb93f17a00075ec12b581246b7970866)),
  (false, (0xe28e719ebf8441e48af0e54959bf7c1998a1e7b2308c005529ea8b02c8548c2, 0x2d9c1b672f2233bcc3c34190601fbe6bef4d26f37c790675a4ffeee1a1777078)),
  (true, (0x2e09edae8520637f243ca1c028bf3a33ee4c76c532d360122d26a81f2fae4b6, 0x20fff4114e3b8ea55cb4cafb3d977b82f45e593ee9d64527bb4d9cfb86afbaaa)),
  (false, (0x292d18f8e830d9f823261fb2cb4d64ba947b7010af2a17ae25a5c5b34e0d80c6, 0x1c489aef7afd94936422893fec300d884107fb7b4284e6ea39faa1ad82558d76)),
  (false, (0xd57784bd929654913a5109c325fcf0ff3e6492bb73755f860e676b8dd95e0b2, 0x2d96c91b612a329d0fefe596d523fb39e1be3c5baec93a9b23c09adcbfd6fa21)),
  (true, (0x261ca83a822642c9b34b1d646e08cb9adb47649edad69c0451dfe56300c3055c, 0x2b5c18b5b42b0d4618cce4a7107c2a242954d6d50e8ed00c9c90f4f9d17679d3)),
  (false, (0x1f25d08fe10dae46556dd7075132ca123e7fbaaaa47e22a70ee60e090e66bc7e, 0x2d3fa492fb9c3de3d5e49f0ecc0c8e8565e8a0c5338b59e0575ac8fdb0376257)),
  (false, (0x6717dcc31faf02dde377266411f0bfecbe4907fcf7537d8589c7f4087d5535c, 0x1aadc43b1c08d5c1f08d19506adf50e80f6861c3f08982d639d1a323acfb6b3)),
  (true, (0xacc0288743b9f17c8af6ec5ac19ae1c41405b61c5879ca82fc8778172155ebc, 0xf0918e59182710fe4c46bcf1f55c6824d2fd868ca48753185cb11f1a845b2b4)),
  (false, (0x8b8e1a0679a3e23798578a7b62284357e07092c6f55c6b24db46062aa22a30, 0x1dee77c83fbfd09e872c4adf3cb1e6182a7f4620698a46b56fb5229a0fe0f2ac)),
  (false, (0x2b1fdb62741a5277954156533a9e15b51b19c2be8fd28c30d752c53077026174, 0x45b391d29c445d3adea653038c9d092ba6c62d20c732da1e41b50c35b5ad66f)),
  (false, (0x2538e6f5ef9ac3cada8266b4177d1488537bb3cb82c2b10ff32c928db4f79e0c, 0x19cc06ff8971a1410dde9a6553bce27539e9a851872bf6e966166b57ae4623e6)),
  (false, (0x29bb7df00f1c273df875a1082f824c3ef115f978df64d5dfe82ac2aa59157cb1, 0x3a77e2f769753f7976e72b9b40ded302ac4256b693c1fdf1669cf83203c3f4e)),
  (true, (0x2c6e46a957d728ab1214669330b9b2429f1da11d0ff2c4d8557123298ce8c559, 0x2f909e29f100c8fd19ddec3db90c89c5d51ec507f0ffc45f88c1a4bc0a83f277)),
  (false, (0x1ab69b4936b72c22e883bffaed78d61b5e1d15ee07e239f0d8d4ddb55bf38c62, 0x169804175d23c6a5e5ffe2452712bfab9f22a4325d211915f444971e456a5b2f)),
  (true, (0x21e3a593b9492420109e6f1bafe026c648f8bdc5927ab893365177572c5d38a2, 0x19537adc8c7815a6783f10dac107d346d5f85747e2aa66160f2ff4fa66f805c0)),
  (false, (0x684466be5bc626036c5d27a1beef047750bd95a0cd923b4ad7b49a4b3bc6ee0, 0x1335cf2a0db35334868b9f03fb4fbe17a6331ef4af184d620c9bc55e2ba1b2db))]

/-- `ξ ^ ((q - 1) / 6)`, by squaring and multiplying. -/
def q2pow (a : ℕ × ℕ) (bits : List Bool) : ℕ × ℕ := bits.foldl (fun acc b => if b then q2mul (q2mul acc acc) a else q2mul acc acc) (1, 0)

theorem q2_one : q2 (1, 0) = 1 := by ext <;> simp [q2, QuadraticAlgebra.re_one, QuadraticAlgebra.im_one]

theorem q2_pow_aux (a : ℕ × ℕ) : ∀ (bits : List Bool) (acc : ℕ × ℕ) (e : ℕ), q2 acc = q2 a ^ e →
    q2 (bits.foldl (fun acc b => if b then q2mul (q2mul acc acc) a else q2mul acc acc) acc) =
      q2 a ^ bits.foldl (fun n b => if b then 2 * n + 1 else 2 * n) e := by
  intro bits
  induction bits with
  | nil => intro acc e h; exact h
  | cons b bits ih =>
    intro acc e h
    rw [List.foldl_cons, List.foldl_cons]
    apply ih
    cases b
    · simp only [Bool.false_eq_true, if_false, q2_mul, h, two_mul, pow_add]
    · simp only [if_true, q2_mul, h, two_mul, pow_add, pow_one]

/-- The bits of `(q - 1) / 6`. -/
def sixthBits : List Bool := (List.range 252).reverse.map fun i => ((bn254Q - 1) / 6).testBit i

theorem frobC_q2 : frobC 1 = q2 (q2pow (9, 1) sixthBits) := by
  unfold q2pow
  rw [q2_pow_aux (9, 1) sixthBits (1, 0) 0 (by rw [q2_one, pow_zero])]
  have h1 : sixthBits.foldl (fun n b => if b then 2 * n + 1 else 2 * n) 0 = (bn254Q ^ 1 - 1) / 6 := by decide +kernel
  have h2 : q2 (9, 1) = Fq2.xi := by ext <;> simp [q2]
  rw [h1, h2, frobC]

theorem q2_conj (a : ℕ × ℕ) : Fq2.conj (q2 a) = q2 (q2sub (a.1, 0) (0, a.2)) := by
  rw [q2_sub]
  ext <;> simp [q2, Fq2.conj]

theorem g2B_mul : g2B * Fq2.xi = 3 := div_mul_cancel₀ _ Fq2.xi_ne

theorem g2Gen_pt : ∃ g : G2, IsPt g2B (q2 g2Gen.1) (q2 g2Gen.2) g := by
  refine IsPt.of_eqn curveOk_g2 ?_
  have h2 : q2 (9, 1) = Fq2.xi := by ext <;> simp [q2]
  have h3 : q2 (3, 0) = 3 := by
    have e : (3 : Fq2) = 1 + 1 + 1 := by norm_num
    rw [e, ← q2_one, ← q2_add, ← q2_add]
    rfl
  have h : q2mul (q2mul g2Gen.2 g2Gen.2) (9, 1) = q2add (q2mul (q2mul (q2mul g2Gen.1 g2Gen.1) g2Gen.1) (9, 1)) (3, 0) := by decide +kernel
  have e := congrArg q2 h
  simp only [q2_mul, q2_add, h2, h3] at e
  have hB := g2B_mul
  generalize q2 g2Gen.1 = x at *
  generalize q2 g2Gen.2 = y at *
  have hx := Fq2.xi_ne
  generalize Fq2.xi = xi at *
  apply mul_right_cancel₀ hx
  linear_combination e - hB

/-- The generator of `G2` has order `r` and its Frobenius image is its `q`-th multiple. -/
theorem g2Gen_inG2 {g : G2} (hg : IsPt g2B (q2 g2Gen.1) (q2 g2Gen.2) g) : InG2 g := by
  have hr : bn254R • g = 0 := by
    have h := g2Chain_spec hg g2CertR g2Gen (g2Gen.1, q2sub (0, 0) g2Gen.2) 1 (by rw [one_smul]; exact hg) (by decide +kernel)
    have h3 : g2CertR.foldl g2Scal 1 + 1 = bn254R := by decide +kernel
    have e : q2 (q2sub (0, 0) g2Gen.2) = -q2 g2Gen.2 := by
      rw [q2_sub, show q2 (0, 0) = 0 by ext <;> simp [q2], zero_sub]
    rw [e] at h
    rw [← h3, succ_nsmul, h.unique hg.neg, neg_add_cancel]
  refine ⟨hg.ne_zero, hr, ?_⟩
  have hf := frobPt_isPt hg
  rw [frobC_q2, q2_conj, q2_conj, pow_two, pow_succ, pow_two, ← q2_mul, ← q2_mul, ← q2_mul, ← q2_mul] at hf
  have h := g2Chain_spec hg g2CertQ g2Gen (q2mul (q2mul (q2pow (9, 1) sixthBits) (q2pow (9, 1) sixthBits)) (q2sub (g2Gen.1.1, 0) (0, g2Gen.1.2)),
    q2mul (q2mul (q2mul (q2pow (9, 1) sixthBits) (q2pow (9, 1) sixthBits)) (q2pow (9, 1) sixthBits)) (q2sub (g2Gen.2.1, 0) (0, g2Gen.2.2))) 1
    (by rw [one_smul]; exact hg) (by decide +kernel)
  have h3 : bn254Q = g2CertQ.foldl g2Scal 1 + bn254R := by decide +kernel
  have h4 : ∀ n m : ℕ, n = m + bn254R → n • g = m • g := by
    rintro n m rfl
    rw [add_nsmul, hr, add_zero]
  exact (hf.unique h).trans (h4 _ _ h3).symm

/-- The multiples of an element of the second group which are not zero belong to it. -/
theorem InG2.smul {g : G2} (hg : InG2 g) {k : ℕ} (hk : ¬ bn254R ∣ k) : InG2 (k • g) := by
  refine ⟨?_, by rw [smul_comm, hg.ord, smul_zero], ?_⟩
  · intro h0
    apply hk
    have h1 : addOrderOf g ∣ bn254R := addOrderOf_dvd_of_nsmul_eq_zero hg.ord
    have h2 : addOrderOf g = bn254R := by
      rcases (Nat.dvd_prime fact_bn254R.out).1 h1 with h | h
      · exact absurd (AddMonoid.addOrderOf_eq_one_iff.1 h) hg.ne
      · exact h
    rw [← h2]
    exact addOrderOf_dvd_of_nsmul_eq_zero h0
  · have h : frobPt (k • g) = k • frobPt g := map_nsmul frobHom k g
    rw [h, hg.frob, smul_comm]

end H2
