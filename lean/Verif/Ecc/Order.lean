import Verif.Ecc.Curve
import Verif.Ecc.Concrete

/-!
# The generators of secp256k1 and of BN254 `G1` have the advertised order

A double-and-add chain, with the slopes given as certificates, evaluated by the kernel.
-/

set_option autoImplicit false
namespace H2

/-- A step of the chain: doubling (`false`) or adding the base point (`true`) with the given slope; `none` if the slope is wrong. -/
def ecStep (q gx gy : ℕ) (st : Bool × ℕ) (P : ℕ × ℕ) : Option (ℕ × ℕ) :=
  let l := st.2
  match st.1 with
  | false =>
    let x3 := (l * l + 2 * (q - P.1)) % q
    if (l * (P.2 * 2)) % q = (P.1 * 3 * P.1) % q ∧ P.1 < q ∧ P.2 < q then
      some (x3, (l * (P.1 + (q - x3)) + (q - P.2)) % q) else none
  | true =>
    let x3 := (l * l + (q - P.1) + (q - gx)) % q
    if (l * (gx + (q - P.1))) % q = (gy + (q - P.2)) % q ∧ P.1 ≠ gx ∧ P.1 < q ∧ P.2 < q ∧ gx < q ∧ gy < q then
      some (x3, (l * (P.1 + (q - x3)) + (q - P.2)) % q) else none

/-- The scalar after a step. -/
def ecScal (k : ℕ) (st : Bool × ℕ) : ℕ := match st.1 with
  | false => 2 * k
  | true => k + 1

/-- The chain. -/
def ecChain (q gx gy : ℕ) : List (Bool × ℕ) → ℕ × ℕ → Option (ℕ × ℕ)
  | [], P => some P
  | st :: sts, P => match ecStep q gx gy st P with
    | some P' => ecChain q gx gy sts P'
    | none => none

theorem natCast_eq_of_mod {q a b : ℕ} (h : a % q = b % q) : (a : ZMod q) = (b : ZMod q) := (ZMod.natCast_eq_natCast_iff a b q).2 h

theorem cast_sub' {q a : ℕ} (h : a ≤ q) : ((q - a : ℕ) : ZMod q) = -(a : ZMod q) := by
  rw [Nat.cast_sub h]; simp

theorem cast_isPt {K : Type} [Field K] {b x y x' y' : K} {g : ECurve b} (h : IsPt b x y g) (hx : x' = x) (hy : y' = y) :
    IsPt b x' y' g := by rw [hx, hy]; exact h

section
variable {q : ℕ} [Fact q.Prime] {b : ZMod q} (hb : CurveOk b) {gx gy : ℕ} {g : ECurve b} (hg : IsPt b (gx : ZMod q) (gy : ZMod q) g)
include hb hg

theorem ecStep_spec {st : Bool × ℕ} {P P' : ℕ × ℕ} {k : ℕ} (hP : IsPt b (P.1 : ZMod q) (P.2 : ZMod q) (k • g))
    (h : ecStep q gx gy st P = some P') : IsPt b (P'.1 : ZMod q) (P'.2 : ZMod q) (ecScal k st • g) := by
  have hq : 0 < q := Nat.Prime.pos Fact.out
  obtain ⟨a, l⟩ := st
  cases a with
  | false =>
    simp only [ecStep] at h
    split at h
    · rename_i h1
      obtain ⟨h1, h2, h3⟩ := h1
      simp only [Option.some.injEq] at h
      subst h
      have e1 := natCast_eq_of_mod h1
      push_cast at e1
      have hx3 : (((l * l + 2 * (q - P.1)) % q : ℕ) : ZMod q) = (l : ZMod q) * l - P.1 * 2 := by
        rw [ZMod.natCast_mod]
        push_cast [cast_sub' h2.le]
        ring
      have hlt : (l * l + 2 * (q - P.1)) % q ≤ q := (Nat.mod_lt _ hq).le
      have := hP.double hb e1 (x3 := (((l * l + 2 * (q - P.1)) % q : ℕ) : ZMod q)) hx3 rfl
      rw [smul_smul] at this
      refine cast_isPt this rfl ?_
      rw [ZMod.natCast_mod]
      push_cast [cast_sub' h3.le, cast_sub' hlt]
      ring
    · simp at h
  | true =>
    simp only [ecStep] at h
    split at h
    · rename_i h1
      obtain ⟨h1, h0, h2, h3, h4, h5⟩ := h1
      simp only [Option.some.injEq] at h
      subst h
      have e1 := natCast_eq_of_mod h1
      push_cast [cast_sub' h2.le, cast_sub' h3.le] at e1
      have hne : (P.1 : ZMod q) ≠ (gx : ZMod q) := by
        intro he
        apply h0
        have := (ZMod.natCast_eq_natCast_iff' _ _ _).1 he
        rwa [Nat.mod_eq_of_lt h2, Nat.mod_eq_of_lt h4] at this
      have hx3 : (((l * l + (q - P.1) + (q - gx)) % q : ℕ) : ZMod q) = (l : ZMod q) * l - P.1 - gx := by
        rw [ZMod.natCast_mod]
        push_cast [cast_sub' h2.le, cast_sub' h4.le]
        ring
      have hlt : (l * l + (q - P.1) + (q - gx)) % q ≤ q := (Nat.mod_lt _ hq).le
      have := hP.add hg hne (l := (l : ZMod q)) (by linear_combination e1)
        (x3 := (((l * l + (q - P.1) + (q - gx)) % q : ℕ) : ZMod q)) hx3 rfl
      rw [← succ_nsmul] at this
      refine cast_isPt this rfl ?_
      rw [ZMod.natCast_mod]
      push_cast [cast_sub' h3.le, cast_sub' hlt]
      ring
    · simp at h

theorem ecChain_spec (sts : List (Bool × ℕ)) : ∀ (P P' : ℕ × ℕ) (k : ℕ), IsPt b (P.1 : ZMod q) (P.2 : ZMod q) (k • g) →
    ecChain q gx gy sts P = some P' → IsPt b (P'.1 : ZMod q) (P'.2 : ZMod q) (sts.foldl ecScal k • g) := by
  induction sts with
  | nil =>
    intro P P' k h1 h2
    simp only [ecChain, Option.some.injEq] at h2
    subst h2
    exact h1
  | cons st sts ih =>
    intro P P' k h1 h2
    rw [ecChain] at h2
    split at h2
    · rename_i P'' h3
      exact ih _ _ _ (ecStep_spec hb hg h1 h3) h2
    · simp at h2

/-- A chain which ends in the opposite of the base point. -/
theorem order_of_chain (sts : List (Bool × ℕ)) {n : ℕ} (h1 : ecChain q gx gy sts (gx, gy) = some (gx, q - gy)) (h2 : gy ≤ q)
    (h3 : sts.foldl ecScal 1 + 1 = n) : n • g = 0 := by
  have := ecChain_spec hb hg sts (gx, gy) (gx, q - gy) 1 (by rw [one_smul]; exact hg) h1
  rw [show (((gx, q - gy) : ℕ × ℕ).2 : ZMod q) = -(gy : ZMod q) from cast_sub' h2] at this
  rw [← h3, succ_nsmul, this.unique hg.neg, neg_add_cancel]

end

/-- The slopes for secp256k1. -/
def secpCert : List (Bool × ℕ) := [
  (false, 0xcb35b28428101a303eb9d1235992ac63f58857c2f631ee6936d3aebbeddcd1b1),
  (true, 0x342119815c0f816f31f431a9fe98a6c76d11425ecaeaecf2d0ef6def197c56b0),
  (false, 0xa69c17c116bc196cf7eeea54e921c6c8a847cd1fce7830438b85c5d11d8edaa9),
  (true, 0xad2b3931a9891201744bcc89bbb32e3afd8deed03753e4e36ff188142c1ae831),
  (false, 0x659311991ca04078c1465534151e770c98550f899013bf61da72261783756574),
  (true, 0x25c5c9307759a75241f547426a6095a0bb85d8b106acfcd2732e68d811be1c9e),
  (false, 0xe6a376128ed85c27cc8d1715fe74624dfcd01ee0115740f5c5e017d0161af012),
  (true, 0x93f65110c76f11b07c58e9c0e2a52efa148307670282ac14182494421e374bbd),
  (false, 0x5e7003bc5c5e610d341ec2329dc7b1ed2c303306520bbc0fa534e7a7bd8f5dde),
  (true, 0xc9bc4235998f210bafc9977fe99b5039047652d9821ca9d0c8a80c4ce980245e),
  (false, 0x32f5769efc31029e0584dbf3e6a5e370540b625e0b45daa714b9cf24586db45e),
  (true, 0x1a3155af6abf5bdee9a3650a76f935852cec622fa454097ea6c50bcd3c73657),
  (false, 0xa970ed203cf82d78993982874828630b31f923d00678c56205bae895c74eeb79),
  (true, 0x2ad68424fbd3df569a0373ffd2d460262e251a2a6432f19b8d5beb1c8883b65b),
  (false, 0xfdc05316bccdef41929bb444f454112992782117d25da4d2c0db71c8b74b8788),
  (true, 0x4b37c8b6ea2a57fae321e09e111fd106a0799995d565f545ff2511e711de79bc),
  (false, 0x5ec9ea081be56f477e52d9ae87c1e0b2de6c3d9e3028a9faf5471bda5259dc98),
  (true, 0x75488fe6d6f5555711738503b8f0d5e0f8fb600126bb71e7f00b6042959baba7),
  (false, 0x4004a33bac0d8f62d3f6c31239916e63f09ec97157baa54f5debb8cbe42b9e41),
  (true, 0x68639c1646ed2c0ec46965ba91e858fca8a3fb0eaa467ad500dcbe854902cd63),
  (false, 0x307b140cd5924759a8a7433af4177f3f84b728d90350acc9a46c58a2416283eb),
  (true, 0xea99047f80666c87c4356f01bba505b8c29383d0f1efb93c599bff86c144c93e),
  (false, 0xd6b5cf9acfc8f6136cd1865243cba6195cf1d713bb80bbbbc37cd562105a2306),
  (true, 0x8a7c2ea05451cac597ae5618f915c25646fda65e89e697b06aa769c6135e376),
  (false, 0x4a6afd1c53c51ff03f1ef8b699756150670e26fae5218760cb22c3800e73eb83),
  (true, 0x1eaf3b101e8dcd7ff2b4f99c319be7a1f7d6b73deb2b22be1e708d6afa6a0d54),
  (false, 0xe8e42d16ee4dd99241b885b3a36b816e6d286c8d3e9c72150028173378d6359),
  (true, 0xdfba4f8fe0dcfe15c4bd430eeff98965b9130f6a63c73df6c1921c22bb1cd254),
  (false, 0xd94434077a3c1d4e96c5b3a2e081a85401a2628ae27a984e217363615d60a0fd),
  (true, 0xbbcfa52543c629540020d2ce5eaee81b54727ab0be0f8642e4d5b16bf5b41d46),
  (false, 0xaab4e6c2e159f2cd6bb3f953d07b0d3cbe283c4540962262287452731b1fcc02),
  (true, 0x8182b17fc6dc6d8f3d9fcddd70c5ddfb0d0472210ebe7de98a6a10baac8d1897),
  (false, 0xe11f6835001369eb75086850c070bec01046ba9c0e53c569b858592d253bcf01),
  (true, 0x697c83c2ceda54b32f6c3b03618021c7f17f6e39ad989f5b4b997fe45d552885),
  (false, 0xcad98b2b7f0a886d5c6c49b457e52e12f411702c82c4781c5ece28fe320acdd2),
  (true, 0xbe96787c330b96736883265ffa6917bd94e0d2be9b7bcddcd5ca67c498a239da),
  (false, 0x7bfa5d9b2231d1801424c515ce5da4a58a80657edd45be0188d1a3346b79faf4),
  (true, 0x9cf4bc381a4f40e93b537c96215331c947b566574d328a7c83b9da1d007d4d04),
  (false, 0x8f7af2ee5d876514f60b94223fa655b2dfcf11f32ec2b63f985b437ba029394e),
  (true, 0xa69e5d458e4c86df47ae982e052155e7447d40e517fed7a1d397be3f23dfca7d),
  (false, 0x9e8e880da673c5c35126886f5442a54fcc74f069ab5f4b17acd98f6ae0f9e7b0),
  (true, 0xefbca2601db795f0b70e42e3608accd681143d91c27547f996cc4040e6ed2e8a),
  (false, 0xb3ca12947672652375ced933e50c977a4834b239bd2dd34104bbc5a03037bbf4),
  (true, 0xd79f4f01dca713bb20f7e4ec31b100cb8385182754c228a43b7d047a2253ef4c),
  (false, 0xf714a25c129989ddb07bc33736ba00167e9b184172dfb22dda00c317a66fcb42),
  (true, 0xd2dc16026406ae35a0663c4ee71527665968052eb607e8e61d9c839c2c1f4c8),
  (false, 0x165af19d1a8f8251a10f075372f3abea524b343b77743970005b7145e6846846),
  (true, 0x27096af8c8838142d8d79e997ec73b463efa3daa5871cee9ad4b57a474bcb05e),
  (false, 0xa1785ce327b6253c5e3f3d54cfff680aceef47a5cbc144f3baa90f875e336534),
  (true, 0xed2630a67f09ce69ed21a45976bfa99c7488941eb280101f0910155fa548b8ef),
  (false, 0x78e2f3cd7964eb916b99fb98c6106d355416254b6817130351672621c022fef9),
  (true, 0x517843307ee8601a66b5c07b23bfc8a5b6990dce19e27d1d0c1341d6e5db5a0a),
  (false, 0x90b7accf9b0634e7636612afbbe7b0430cfe6f106996579305ab93ca24e960e9),
  (true, 0x27f195f6f4cf4b4f4247222bc5e0a63c84f8dc0044d8434e6967cd633583ac12),
  (false, 0xedc100775d0e753b864e9c138af3e85ce9babbdc55156e5f125b981bbfd6f520),
  (true, 0x7a5876e995a23ca415b6401e8f1422044eb5d628b8e7f1be2f2b23b179638ce4),
  (false, 0x34448962937c0d600c1967e421707c61a59d1c4adf47d1aaf76ca775be803070),
  (true, 0xec9d8b600f104ad578eea08a5a5f33d2386a46be5c8b144f525b5952a98bf573),
  (false, 0xf8840516c757d0a6c6f15a190cba025bea247396f2dbc670ddb91854bb82dc9d),
  (true, 0x206dae4437a18c0b68bd3443b585779c016fcdf4c643b36a18e520f8ece00a7a),
  (false, 0xb2307fd8e73711cbd2a5acb254cd6366ea58393ed307b03dcd9b9dd2666038d2),
  (true, 0x182ff63b52c5f822dc158ee256f391cc6756095669c3d4d07254f4072031e273),
  (false, 0x2573d5756ec32c905e510a4ed8efd39fd4da7ce8f4300c38b82ed0b8898024a8),
  (true, 0xfff61f6a679952b10282c9d6b4964bab529faa70b621f2b31d3c88f0f7c7cc9e),
  (false, 0xd734a7e52dbb035ffdc25990fa1ccdc84e14ba899f6c60d22620b21347e3109f),
  (true, 0xd4884fb8826291f77f821c16080f56a85c05dd6a22b2a11eeb48cda23c3ead0a),
  (false, 0x53dee14e1e679efe0fa5ddbb4474c4bc3b62c38fb29ad2f66b32d02cf7769e26),
  (true, 0xca38791b0a89b2e2b2fe934b7923fa72237c623fecb30bfadd6410fd49ef94c),
  (false, 0xb863f4f981f73bb8ce379072cb8929e3d5143b31be0ba2850acd8d2a9428a15b),
  (true, 0x4e236135fb12ae1dd09f7b6c4362369ab0f04edf24575a62633b681957080d9),
  (false, 0x4df58bfddc64feed703e053aeb426c49b42ef4e12cf39569dd1c47b17ace3b8f),
  (true, 0x92776b0dafe4eca1bf06e30cd3425605d46299b3dd71d5ad3dce56797550eaf0),
  (false, 0xc6833c3264fd8e7192fd60e10366d4d696497985bbec4ad97f9b79462e2fea0c),
  (true, 0x1bb82722844f690161c0d8bbb1cd95161b50cf17a41214fd660fafb194ccf374),
  (false, 0xf792a479fc3f4b006bc0a43c4c60e7d3f356d33e56a6f2a22ca8ac6f024f0805),
  (true, 0x2cf6c4b0820a957e7aa0f16c4f1159824389a7cf44dc0729707faa7b91efac28),
  (false, 0xdbea84bdbe79d31de5ff551604ff4e4e3a888a9e1fee97a1f696ea2385bed8b0),
  (true, 0x90bf7663bdc4e6d78332bfde61ad4e1cd57db66bc6d1a5ea8feb6377c0428204),
  (false, 0xb1b927bbe4f17c53994f61929fc540bfdf36fabe2c44a77620ef8cb461a05820),
  (true, 0xf7c67d831900b7916f895052a0059974f3c6ef5e5d3a297603d3d3188fc69677),
  (false, 0x840bf5343809468827fe4fced31324995ba6eb48219847dd627a7244cddd884d),
  (true, 0x2451e22327463a96200349fc8b71b56548c54faaf0a7bc7d15529aa8603c4d8c),
  (false, 0xe5fae193159084f8528ffa90342792029cff2f1d3e816df2ea4d6f488f751ac6),
  (true, 0xb83c1c2c9af899a6371769e1c6de7227a234f115b608559be303c65fde028566),
  (false, 0x33d81c3daac368d14470db3c04b2b8970860e1c0e5ff7fe25478ceb52b6420ac),
  (true, 0x850cc4d935ae0a8674ebf5ea92f38ede47e98e1f02e478e0c2a50ceb5ffab32a),
  (false, 0xdb3ab30aeeb3407905cb4cd5376fa82b0d04be013fa13ec1874252629371b024),
  (true, 0x9c1e0d91dac37d1b380cc87b5daba9e4b1fe00284ee84c461e456d2926ecab8d),
  (false, 0x94143d460ac5968e69950b84ff0c31708467c65ec9d6603a108e31f07b0aed31),
  (true, 0xae2892d821619350acf649d9b047175e04193dae025d3d5f529d65eb7b4b411b),
  (false, 0xd199bee5edcd80195e58a03ff11d217efa4bd55796ae4da1a5233cda3a5640ce),
  (true, 0xfd3f35ae90e60e68bb9ee7415c8761319c6859e894542398558c13b02008fe19),
  (false, 0x2001b659f6aa63038ebc76e9dc176a66951d74d7673d9098eedd9634316fbe37),
  (true, 0xa5f01a846dd6063ac66bfa48a879fe5b448bc9da3916cee23a43be4478306ec5),
  (false, 0xf22d7a098199475a8e37abebfab1b57554124dbbaf249ae015721fd5bcf49cb),
  (true, 0x768255742da33703d1c25c7886929f283c4319245da1ec5403e485d7040bdb84),
  (false, 0x13c8d40371df66fe1a8fd4efaa2987cba6b1351b438951b8bbd7d86a52f2654e),
  (true, 0x3e05cb92b89ba11163eae1939a0c4a15b5d0166d2729e60d1712e33e378dc4d1),
  (false, 0x9ee7121ce457b0c95449a7c47a91a300d867c95108b19ef361f8ec42ef9937d0),
  (true, 0x68be75e98880850d0f2b25c6f942754d24d8fd1a75562e91c00e444bdb6e526a),
  (false, 0xff9692bc153fdd34a3e639d20835531e1fa4ecab124acd020d04d3aa038f40f0),
  (true, 0x6d0c6bec6b0a25b6c94a9690c4ed47b8592c145daeadd0f803f6f8963a64d19a),
  (false, 0x39967194978e4ca8f5847a20ffb23c6afe7b29b787adf79f428a7e06b701e32d),
  (true, 0x70c83f08b44ba5724d92c2eb9419c939608e92ac2e21a7bcbed4fcafa973816),
  (false, 0x9b7734666085e78da3a0b58d3ed86ecbc4888ce7f4b338f9f7bc496b5ce4ae5b),
  (true, 0xcd11e957919ab1baa1c2a4623f859c2a5c25cc7d659283929513e274dd6c0dac),
  (false, 0x60711e6d8febbde20bb683012ec65ca2fd2fbd4f528e7c88b2d0ebc1323a98a3),
  (true, 0xbb5f81c1db4efde192811e9c18fb0247bba27044120bd6040fdaf6dcdaf3f621),
  (false, 0x844c870fd70e5e0839bbd92f8f66a7397f3b120dea4dd8f31014d4d93974eb7e),
  (true, 0xe86d3d213ce0751b1459ea7bb2b2d2487bfb4bc3778cb343cee44d4271f76cd2),
  (false, 0x8dc6d60ce47cf022df5b6a2405fe27e827e8c9b4aa74bf9854429b4bf61461ef),
  (true, 0x6c3c6a9bc06d13367cce6f18949a42901bbd382fcdca8d14da78a4b25e659577),
  (false, 0x569c0da55c00e50d3fa8a2fb8bfd6e2fed3f2e01b6fb2c83cdc77db61fca1085),
  (true, 0x1dc48780f65d7f1baf557b0eb4cdc417e2043a29b2c779b283eb45641a8dee89),
  (false, 0x2b5339cc3c5a99cd3033aba14d2a1b84555b7b57b1e6c9c951ed8ccf0ae668),
  (true, 0xf13eb2a3b5286ce78ef10cc980fc2b1e94878c327e2b87c70416377404b14dfb),
  (false, 0x15777a281223ea5514ec527f34aac11efef9ecf0191122b55c2c7d7ae7b65e35),
  (true, 0x91e2d4b313989225dff1c1dea3a2e3dcea12ec3b60022f3a2a60ac30ed5aafed),
  (false, 0xca717f2ad06050149e714fa98e9cb3534a3e305d7aafcd12779e19f8cebf8a97),
  (true, 0x70540af1dd215a4839af145f2dd96e72ee86038d0923faeb51d40539355040a4),
  (false, 0x94a3a867589ded60a4d4c39da744fd73fa9cd3d99386ea5d4109937093929ee6),
  (true, 0x1c22d7ae5b4cc23b514b2ab9707f58bd07983e00d77b97ca6887e66e27e7cf6c),
  (false, 0x860972c9f748d4b8b7b8d51dc1dc7d837071e36594736378d26cd51d6fff0d78),
  (true, 0x50f91d9961dc9f24b60a3945127d446f59cf19dc0004c74355218e2a214c7677),
  (false, 0xaec30bb522ea06530a4c825d27a8642d2e54de040019594755fd88f254189b51),
  (true, 0x5c1dc63f9292de085a39bb0737a0b5366349725df6689a15831e2c1eb95cf854),
  (false, 0x6416e00254cad57f9c8f0da2900ba58381c9fa956905906b58182bb65bd19569),
  (true, 0x729d9c6000029fb5f61b5f6ae1a23f77c186693585aab23bd9e18d20c0e8ee64),
  (false, 0xb08d3b0ff2a61219c9fe4f6cc8558a0d2b164d481c18314bc8e14d9a8e2f6de),
  (true, 0x615f38e01207114ff1861a43c5ebe1db8ab232c44ae354752c65e49e540e3563),
  (false, 0x527b6941229c941541a7dd9976accb0b824821e92a8f0d9cb6a73e9a160724be),
  (true, 0xfcefe7d2fcbda8097a3716a7251e36efdb713cb1eee281bb5c8abdcb6230e1b1),
  (false, 0x557d86da23a0258e425f93b98d3ea3ab1b0de042fff9d114ad74066c3c184d83),
  (true, 0xd162f4a771930b30b3b897386a5e94302065d4b187f4521023708bbf9b6bdc57),
  (false, 0x9c4356850d5094534e637566f6c726ba8fcb613037f678a716d442bc95fbac4),
  (true, 0xfa631c4edff9cb1c88cbd69b6f188ff8701acf345655142187e3b89a7c84595f),
  (false, 0xe2562e55d3b198e3ef63f1037c61348b42c40e1f21b203f3a426e3818644fa94),
  (true, 0x2252f429d4029c4a45e16765b14dea4fb90825346b92a9043423a099e9f1d93d),
  (false, 0xb70adb31dd7be77e821726a8c664cffde80c3420546fff30135fd8a43eff556b),
  (true, 0x7310862502baf1b478ace1d3dc2f829b7921559049143abc8810b822c3260973),
  (false, 0x1db801d65431ec73b70b3c81d7fe4835d28296b608eacdd0ecd12e8542f0027),
  (true, 0xc92a6397cfc740e02898c232eadd81aac13a16790db1e7e38c91c53bc53469e9),
  (false, 0x197507bb87eaee76c33b94b7ce541d2199ae081c53a3b08a0b8ef0037f6ec721),
  (true, 0x21ab75b6cccaee67388f7e747d0e564d40bd67982c750cf4f7f07f585e0df311),
  (false, 0x2cd1272169720c1e819ae5b352bf34ff15c7b194636531ae3f73f7c0d8701b57),
  (true, 0x5ce7e86a70c7072af7e4479f884e89b27ccc3863e312c79c0f6619e7c439f074),
  (false, 0xdee8a576a51dbadf2e2ef4d898ea6daa4f2109b874c74b2c3f63d0ac5a0d0d6e),
  (true, 0x3b05b489c04c2187b4a9d7a1367e2b39fac23afaa3bd3c0836a3c6177dc45856),
  (false, 0x2b0b225eab80369ac2b1af015fb308feeadd38131df1858932b1961560e0a8b),
  (true, 0x7ed493556a8f1396d627fe6973f99460d03b4b39175d3c741ef5d9f53cae4cec),
  (false, 0xa341a365f2dd635e68534f13ce12049c7966cbd672fa3cb3f62e1fc38906e48f),
  (true, 0xc0ddacbd87b975ce779ed42524ee1d9931bf9b5ec1212b1b87b7c083db73cbd4),
  (false, 0x76970b97d9207ace885b30126597e78de86b06ef2b83939f44f623fa37173d83),
  (true, 0x87ad1ee68b8526ae77432367a5daedaa6a50950e6e58a95a50eb1170a87c580),
  (false, 0x981f3aee604bcbd7b5158a7cf47e16faf24521b7ba69fc91a1ef624738016a21),
  (true, 0xecad9d528192c33d844a817582166d07172809974b51248ef3b3ffe2b817b6fa),
  (false, 0xd33b8637be3c994354670f7704b974108b2d048151604b5b642ec0f8bf8a52db),
  (true, 0xdb783adceedc155300f48ea5bd331cfb7bd8fdc5e96c6b11b3a15bdb46651f79),
  (false, 0xb67714fcead854f4d4c22727fc0287360fa00c21c22e80006f588dc5dfe27f80),
  (true, 0x5273c94931f5b43b3fddca7e15a73472857088a92beba2c95364be6e8c20c74),
  (false, 0xe936539a7df5fc25c059320acf3a12c9979af7af882b889a707126ea0eace6bd),
  (true, 0xde0c02b305b43882a8ce56d9a304fba1a06f347de0299f1822ae51c45788bb2d),
  (false, 0xecd54bdd5f2d838db6dee30c756c9806bd8ecc5f5dee2bdac0cdfc84e9c0e86),
  (true, 0xf7060c7095b0a913f4aa3dec9d992e9575ebd4fb5e0c78bf8f4f50a739be8eb3),
  (false, 0x23b5c86e7068617c26aaede8689f6a954ec64583db3d7e0a74c0936453fbca38),
  (true, 0x33f2da73028226028897cea817c0a01fcd9abd54702d315eb8cfd6966109d46e),
  (false, 0xa41b8e11f15e7cd600f561c52dea0cc66e95a8b8e5b4bfb5ce5b98705e7635b6),
  (true, 0x85325ff9903d466da37c3113a60e1e00fe555bd782b6f2fd2ae9fcb44a4c9004),
  (false, 0xe918ab9d2c9cbcdace2f68930376c22eb8ffb01541170de1443a9c0b22ec86f2),
  (true, 0x84f346c5c5f330740a3de736de5163cc8b858dec135c46172ebd15679c1170ca),
  (false, 0x1f920a0a5493e54f7f0aa38908d72884ee541ac299d2840ce6a42c0d22eeb0bb),
  (true, 0x8abbb205208a2911dbbfa33e5e94aa15d430c510af215dbd2a48fcbb30143742),
  (false, 0x867ac1edfaebffebb462b9334be3f46f9e16e4e2546670de2b6329d78273107d),
  (true, 0x718af586b76e13a633189294fea60f2a1b48e1a4ab0d9646c3190f7c66e50d8f),
  (false, 0x652448f8abd4ba18764ead490ac6b489bee735faeba7368138520e0e8452fe74),
  (true, 0xbd4cc188c69c6f8e5ac86965c65cf562b502dd7b98ed9b54709f92d25c690f74),
  (false, 0x1b35aac1ea24fec1528f0f38e1da21f3ce60f896a171eb4674fd54d4e6e072c0),
  (true, 0xfe2650879006eba632896291d99138a196bd7a3b6bef34f9e85aa08cfd1e1e26),
  (false, 0x4dc90360e6a2876083f187f3ffb3feee5c347841fbef83e0cba8bad9f6523d36),
  (true, 0x34d1dfc055ab8a6b9105c34d474a6cba02cba5965ab0e90fc30cc9e81de00b7f),
  (false, 0xd64bedd770115aee5ba8a0577990a7dbd8b6fda15584132b6cfed17604190f26),
  (true, 0x4b5528d391655423d32797139a862fc62f4cef428fab6c1aa29d56d218138709),
  (false, 0xce33c3ae098e194aaf5c5df9e30811bc0c7592e465d1c96159de36691a5a1265),
  (true, 0xb27090b7629536d502acd56365f06e90c380f5d683837d9e79d8066cff72bd49),
  (false, 0xe49527104a6dfe145a93a241555af48b13236ab5200713c20c8d9fe3df8a001c),
  (true, 0xb00df8f4a7a79067c177b99e526b8c8355c0f9587eddc597867feba3d31fed10),
  (false, 0xc78535653fe1f65823a9f553e51eebc39b87a6d04a1a79df452c7739d7e50d5f),
  (true, 0x758008bf43633aa80818728d5b8d753efdbf3df67222d0b60521225b1c182353),
  (false, 0xdc6ff8606a89255398986e1545a4edd87789dcdce1039891aba3144eb1638d49),
  (true, 0x7f874347ce8a359d84283f250be0351e9ca7ad7826ee6d80653a361f9b850af5),
  (false, 0x8a93f16e1b0223af79c6c8c93d88c46e1ef2c5474d0b3606026b8e157385187e),
  (true, 0x2a194e5b6298a3c8bf25d226afe4d30f884fdfca9dbfbae3bee8adc5a62a530e),
  (false, 0x9b7992df133f447f71a83861c9083a0eb4b57a6a270fa6b14c58cd1fa7552c7e),
  (true, 0xc7ce009b4be5de9735a6c2b354d00fbf3c1633770b4bc3af6e0b0ffdd596b50c),
  (false, 0xed31f40d405010f51da05f5989d408623cf8a2ddbb9066c25b0588084c3089e4),
  (true, 0xaf68fc9b7387a810f0ea288b9e98befca1411c41d6725085109c5febd77a268b),
  (false, 0x19b22b3942388afc1f32d4cc42f0adbb17b2ac973a795fdc90d4f2c232879301),
  (true, 0x99b092455957ccc10fb160e0e16a58a0602994993237e1522f93a364c45b6311),
  (false, 0x1d6432c2da8f757222036a50616ea28828523cd971cfb5a82f1b2341c6a59423),
  (true, 0xe531526e7bb34216ef2b640e088e2bdd2aa1a6d4e95e4be0319186b6ad7c7c2e),
  (false, 0x63c1573f8516f133d55f059a7c3fde79c1f0ca62d0e008ce68d6c4301a3616e7),
  (true, 0xfb5edcdf4a00eeb881d382aba0801ed39b8932e106a6ee03633ae55c156e8a72),
  (false, 0xd5334843bd6d76c5b5a5fa6a0b22caa8d0d10fc72211528034cbb8cb1054a18f),
  (true, 0x62c7b4b5c40013fe5aaab64168dc5b05f7f5e551ee092560d1319b6b895faef8),
  (false, 0xbb3827fb22788337ae1df75820c10dba1d0a02a01923505ce4f2c300a9fd19d1),
  (true, 0xf10134671de373ee7a98c27e438b9fdf3e2b5c4a6e06ef66193c9a3ebbdd96eb),
  (false, 0x66db9e23da9f2357bf6318722ea787cd09ff5ee3c6f23f7c86d0b1ee34bc9187),
  (true, 0xdce4d2903d8debee56cdd66905fa952c5ddb8bd2418c6bcda1dc9c6a473602b0),
  (false, 0xdbd551b4f4b064658c6ae01f2bc16c90bd7b4bb15f3911fa975d488a3d23946c),
  (true, 0x78cc8ecab967d37cd6b2da4cb5e9a0ab77b3c178f3e8e2de8ef8578a28f6564f),
  (false, 0xfd07cbc6b6fac24360269e3fb3ac3d310bb1e63da2474e7069b50aa45294a806),
  (true, 0x9e939eadd68cea5832b8b6b77cb2a2b527b141985d88d766fb17875e3e8a2080),
  (false, 0x8cfe79c35d9c37ade49de818e690ea5a4e91ab2da9c49d78caf19deb13b78d0c),
  (true, 0xe80835b2aa686d157f2a33e26e0acea88149acfcb2a29aecc27a12cf23766fad),
  (false, 0x86e69eca4123bd8ed48c0fc92b0ee76ab6b5c7918e97587652c8622fdb04255b),
  (true, 0x34ff9095a7ac1a5ff9e3c459a0a8f8c5584d8c312060232c08f8daaddb0a8e3),
  (false, 0xd9b4f2cfff8d2a8578266507be4f45f9502a09fb7d44db29a657839714796ade),
  (true, 0x60e22764990a0b794c7d1de3b54202824dfa35a9f84aa8477041e667d4182514),
  (false, 0x47f6f2f5e6c3aa727042bc51c1d8cde6b9da044815ca4441951e73f796463a37),
  (true, 0xe463b1f3be7bcf0121351bfc988da8ee9a3c81359a1d2f522819a1e5548a2a29),
  (false, 0xade49f68d6fd6e487cf915068fbc4ec88a0ad4d0563220ac502786e1aeb704fc),
  (true, 0xeda39ec07448eb34008e524710aa5e618665d873d8511ea74c867aa4b3dfcb80),
  (false, 0x354a8d416df2b76ea671bd2d2a75307b9f9fa39d760f7fbd7f5e8ddf395a08b7),
  (true, 0xed5224bd4a473b716dcdfa4d54fa885a648f186aeccf5eb66f961506c33e2f78),
  (false, 0xade8d83bbae2c4b420a9ce77a4eafde582547186f02ced7e69c4f2b9dce10d82),
  (true, 0x2a761a7dc5e8a55deabce2d7b0c20d12518c1d2f9114ed21f163e41cff7d39e9),
  (false, 0xd5d7222416c8d775e5be42e1edfca5f4450acba72abec0b9a8e3fb4fb3638fc8),
  (true, 0x8b6a8d24ccb7d31a2286e7136b78a4b2223ea105aa37c76335a599cd42d08139),
  (false, 0x6fb28815a0ecc97bf4a050d191cffbd517fb249ef252208a553ff491df4873ca),
  (true, 0xca42f919f1df91da1a791fe4b2cd9c6746ab246901643f22a4e0b23baaf9dd52),
  (false, 0xdc8ccc03200a59d75dabc5dc646054194dfa1fb9262aefbee3773e8f066b4080),
  (true, 0x71bd58e350d2b45c8397e102c7bd224d01f57ed1d0d4d2fe28dd1757897fcc40),
  (false, 0x7cf785896872de292ef8d04c9a4bd6752b0283b334aeeed0926d62c60f84c63b),
  (true, 0x7a305781e019ba6b148ba056630113ef1830fdaa5d0ba86fc05caa250a5dd834),
  (false, 0x5cb0c9f432b28592337cb60e8fd2e4433de1e82146b736c25e8507e2c732f8b2),
  (true, 0x59b7f9fa755e393a86f41d14fe1f4355255e0c02aa59eecbe0f8d5cb2bbce45c),
  (false, 0xcc1308f867f37f966586c3aed97b75f5e0a4207c34ac1b6244031de9dc378b3c),
  (true, 0x8dce13d16b53f0ed2e56d71d776aee9f30a72d0bbeab3ff635acd0f51d1fef11),
  (false, 0x28cd61f487b08fe5c086fcd582f7ef4d038b3b1eac5dc027ce3ea940a702f395),
  (true, 0x19a1b2ea3e2f9d1b03efa572c8bfd71d2e19827d8139cbcf71d8e330fc463a08),
  (false, 0xf488531013396f122c6380fa9bcf529a4a1a8030f0ee0fd7f086881f3b47296c),
  (true, 0xc85eaf6bfea3313244ba71523b1bb1e4897b08dd97961a63439b7ada636f1583),
  (false, 0x6fdf88045c35210fba115a99e7e1f0c22168bbd4e3696a2a7b1c88453ed23522),
  (true, 0x88b56f437405dd5c8a57c4f2e77b944b210995e5c13adc843e442b389724f6b9),
  (false, 0x850f025e53a726ece94569ab7f3110ef61eebe11db48605146ce512f7b9cc1d6),
  (true, 0x9780d7cb0408d9bf2c9b149e3506e18ff42307ceb5d19b896238c9c6a7fbaf6f),
  (false, 0x50c599c6c7eed04de4557b70629938a5efe449553afd480ac0f9ae995d344f65),
  (true, 0x9ebf94382972af6bff3a9a57e24b68bcc508cedad241509f342b151e7db2f71b),
  (false, 0xba29075feeb1944a203f9f27aaec6440ce8936542cda770d1ac48849547da262),
  (true, 0x3d1cfb1c8ece579815a1bcf52cba51fe6d41c997cff3edef46f3b1a0ce8e2d19),
  (false, 0x24af2cf595bb5989820036d1cf891744291d712a3b49a2bab3287a5931cdc57),
  (true, 0x44565f3dd57f21a2781d6b23391b8fbcef09d46ca234cf171d9dc7248d06418f),
  (false, 0x15d30e1cde739d10772cc7d6bbc109f5a3e23e6a66fd3a77e98839167464fea3),
  (false, 0x70f9f0dccfa3e73c342b7584f48bfe7576b17844686138033787e8a7e6462e86),
  (true, 0x50d5089b5a74ed3712292c35b44e806bb3cc8e35d3490c682bc028992692b755),
  (false, 0x798ae92376ef80df046f55128ac898e9dd2bbcd8795657eb9ce04d680efd3ecc),
  (false, 0x49a53a0c31d207a80c2079095835645344f838316e636a8aaeabd43754edf626),
  (true, 0xf614d124698cbf302b12648f67e35b94ec9aae699ce2ac4ac30c2f97ae77b87b),
  (false, 0x7684c61da59f0fe2930db6a3ca287d40264e03477ef83d8f00444cce3d0a9490),
  (true, 0x9abb42813cf5a6c3895e188e6f88e3fb1b0252a9522933efa0a862052b52435a),
  (false, 0x47bffd0e5dec41b22284243bd74d6439421f82331caa2ab1e3fe7f21f797d8c),
  (true, 0x87ce2f8a06f747d4003311b4ab65f2b460dd06105f0ef62054a6ad6f8829c3d4),
  (false, 0x9c071dff3bf3b99e0115bb6b03cd10d03c66d5c419846605d1c9fe0c094df90a),
  (false, 0x73b144be9ca33547c5024e2b48f1d0d01e8a32a4680094cb4e388a350f15cc),
  (true, 0xea5c21296b269c7f78010ff702bac9e39084c3046566224647ee7ec45cd82673),
  (false, 0x5732107a973bb414651d1438e0bcfc9ef6e5f478c2867afd7e0a7c9288f79536),
  (false, 0x1f16a3c84b9282411b8e811a7cce72cfe968d1f1b92d684a8fb7d274a38530d9),
  (true, 0x73542a52fad68cd34fc84a1c1ed2bcac6cff9ce801c0dd7cc63de1dd66c67afa),
  (false, 0xe40fffc9305a96c09e424d5085af7c67f4e7d7869677b7bd0a87aca7c96dabca),
  (false, 0x872d0466917c9f912f2300c1fc71036b03cc87b37254ccdb57aca31f3c2e4da9),
  (true, 0x998171cbbf98c642cb1f5c2a3f60694f6779727d4546cbb4053aa70e7f6074ca),
  (false, 0x2fa2e6f886d4b979181be5adb130a17715b8c07ace29d4eb98f1cb2e7848af4c),
  (false, 0xe47dabbbeeb549be40deed072d89cee310e2af638303050b255a11a80e01bdfd),
  (true, 0xcdaf9041f8677dd58b4c901692ddecd1fbd06cef1804c17c1715eabb687e6b17),
  (false, 0x50a221b2f178b80926755e83ed8b0e6aa965d6c9c2648bd7652d018a857abffa),
  (true, 0x20b40cbe9c02da36ccf89eebbf40dc8b11816ab08dd182bd3e27829b36d2ce85),
  (false, 0x3f903a9623f3a297a25a97efae6b1f15f72d2d5190278885076b5ffb16a725b9),
  (true, 0x2887892dfbe539056f57c113b65b33b535c84248680d0e7eb6796ae6a4f68e94),
  (false, 0x4def9248e6dff302f51cd7aac90def761ee0913e6e30a901726eee5d2af0bd08),
  (false, 0xd70ec55e56ad99e96e757647b163998380d2135314ec6ba5669654e2cb701c9a),
  (true, 0x9b450142e057cc2ea1d6b61937cf4a584a2eafaa291c694b3c7bac795ef7ca9),
  (false, 0x26798f69c77aecbb9dc47679fa3a5a3b42048664b0936ed1f7d3ceaaa2aef5db),
  (true, 0xc952d7109aad33a36e07a0e6bce7880afcfd78602a773b5787c582b3b65b09bb),
  (false, 0xe7d985dbf677a15ded43ff92e325f7a8728474d593951ab233daba58a0dfa191),
  (false, 0xcac8ee56873c714232599d2d5b3ccff13dc0eed19dc6ffe6958599909137da2e),
  (true, 0x6026c28add89ad9101f0cd66ea6b5fe7cc27d7617d3c1e35937151a7e6c61230),
  (false, 0xc95db58f46986400260fb47138c8cc7e07cd67d2adb88e746a72d00c58deaebb),
  (true, 0x20884e7355c4e996e10beeed18d0eb59a8ab9efe966fcbf59f6ce3634ccd7919),
  (false, 0x2a4bd615dcb92eab8749fca442567a011047d914ab262e9a230a75263a88abd2),
  (true, 0x390922097e24cea7866575ce321f6a23d5bdb03a1fb0ad4ac7ba882037b8e613),
  (false, 0x88246dec0a2f5c1781c111b275131f55b126fd8e265fdde8ac3989cb1274622c),
  (false, 0x907e6ca0df806efa454760a45d6531e8911524be961db28481f68854ccaa76f4),
  (false, 0x178d74f76eaa73bca5b6eb2002f00e70451125257f4bbb21afc676f885d66ae),
  (true, 0x597e6e102fb22978219b5924de46902f6abf9a6e5a04e65a4c56cae2bc05333),
  (false, 0x42344c89ce9fa6d61174787e0eba3437b9930069b36e38fa81717f029a015e00),
  (true, 0xc83088e6b3791f3e7aa83a7d45619301350a1989d41646230416e778ab0950c4),
  (false, 0xa62fa653dd6625350083b4e38393ec4ba6d7f9d8d81c7769e8759cd0f41331af),
  (true, 0x430666e4307db4c9024466cc9d9d6bb621b66e1c18c902e9d45a91b9b703b168),
  (false, 0xb7d7dfd2dd60ebc633df4932f165679c28f925b5ac1c11cae367c92589a57d92),
  (false, 0x75a74a2e990e1651dddec1e928034d4da24fb8884096c0933e6136f675561c39),
  (false, 0xac8358ff17e0d817bfeb4ef3654e06479b4046f4105d204bcdc996a0e620f8bd),
  (true, 0x1af47f3c8bf1bc3299444ce6558889c8d92745da4d982d3a7efbf7fb5d46875),
  (false, 0x679cb473dc12a2918c3c3827168fd9e524ccf4f868b3fd2191d09eb1e500121a),
  (true, 0x3792680c098ba165f0fefedd0b4db31ab7441fd42db2c5ad59800f83d7de3d26),
  (false, 0xdf411aa363e4786d551681a55d89e6d7ac119e4a3083e8c79c9a718d8619b3bd),
  (false, 0xea1b53c2aa6f71a051e448f87c88a9095ea873028a94bd4b2ee9af90bcb1eac4),
  (true, 0x962cf5d9838fb9fc8dc74d7f74df049f7d85abfe39fc5339cec6714d59376a7a),
  (false, 0xede379c8816bce900ddeab2f33b9113929dfc9242b63cba9a67dc5f5be8bad6d),
  (false, 0x6321e085fdeb048016841b6a9ed4eabbc689e49d289e4aaab528e4ef1543312d),
  (true, 0x3e1aad2501702f34893c4661ef8fd3dba7dd179e51396fc675d4b6dd99347fe4),
  (false, 0x39b0150b6e95f57baa07963f4bfa9ced1c26ecc4c51cd8aeb46e2cad878df313),
  (false, 0x2e0152ce0d9c1a5ddacf15a2f517b25627330c683614735674dcbed624e65ae0),
  (true, 0x17f6a184c52be2960574258b00dc41b7d17945c0e4f265e240e90eef0b7b42f6),
  (false, 0x61ac483b86acef279cc960de2414b52d100d00429d1bef1596a5a1e1986ed89c),
  (true, 0x462d7a741aaf1d2fdd617d6cd96e093046c39d7bf1b53ddef68827f59ed5e222),
  (false, 0x362429d6a8eb7152c8a25e4a154ab24d80b0401e5fe0a20c9a901fc4628f1cc1),
  (true, 0x897c5346bbea118021d1db8ddeca17078d61494255d60d903501ab0d96dbdfc8),
  (false, 0x4a4306f1fe4fe56cf8390f421fab831d29aa38e749b6fbe2e1011e229d1c4dc0),
  (true, 0xbd1ab3a4b261496084afd99fadfb56f19c896d5f05c139a72e1e1fcdbb07be70),
  (false, 0xfcf1523b82f29c2de448f6d989ac55b2df8473bf03b0568f47ba0ecb0bdd77af),
  (false, 0x490c1ce453ca3fd42de1dd36b26e293a111b987c7deccac16fb161186ca125a),
  (true, 0x3855482b858ff0489054da3a871a0829ec1abe06156a9c76d133a74243635ec5),
  (false, 0x2e293dde18e6e71e43395520c05773ea44bad530ab495d611458e2ef46a7707b),
  (false, 0xb06e1d39763a83a57fb67b677d4b44e12d71299c9b00785b1112809177da5c59),
  (false, 0xb4a04407ebd4b6a776a7bcf22e2391ef82fcb38caa323d9d88f6b064243137c6),
  (true, 0x3744b45e624b5e48ff3377f3c07d5a48a62ed058e0e7960d23aeab1b85b0fbd3),
  (false, 0x4287ac902cd67c7e2ad5bf1085a4583c2156251d39355ae4d1eab8ae366e1da1),
  (false, 0xba3a1732d8f416c8d30c483abba55c6650234c26cc68ee2b4b5b9dbe94eac59a),
  (false, 0x37775d936f164f8a84a47a9fb920758d15245f8c54c93178d1c4b5cafe4aa748),
  (false, 0xa4a58801d8546d2f02a4050f921dab5916a5a5dd44176f76551f3edbafa49fab),
  (true, 0x55a917ba6b5d45d33ea48131d175456e0b896ca85247cc49de12458f2b48d505),
  (false, 0x370e8f0214178e23448c3e2d2bf282e330be2f2967a412792452a0383df0b62f),
  (false, 0x50cf9a814a661783423db02e4a5e06e785ff9a267cc04fa814022a9de2273796),
  (true, 0xbd812c5cc435aadb43c291fb04112777d6607f416d48ecca063d66c94d240d4e),
  (false, 0x15ed51763216385857d89c815309ebe43b35f69a834afdb5cb1b2cd34ffcf80a),
  (false, 0x9f0934630df8621d6a3c6c02ff916caccb0616bde61bfadbe8e0e5aed2afa375),
  (false, 0x7e719a2b2ba07ae6d322194e523da6eea7ede79a3be1ffb3fc12bdee43de1167),
  (false, 0x6041ba759eb9a87f0bf848fa65af818d3fcfffaa0c80943b90c7449163936b3e),
  (false, 0xa6a11f381b330e0eceead13193ca089f4cdce3ed7c19bb361cec09cf272e6dea),
  (false, 0xf46c2f33e3c1237340aa05dacbfd10f83f8c6aef5265ffc24313453af50d9f95),
  (false, 0xddae855b43b0804eef5626ba19b0872ade9f6db236626d5f6b712d8485de4f93),
  (false, 0xaa04eb321d85a9b24fb59178442a350eebd6e42eff6a4f491def6749dfde2371),
  (true, 0xfd05caa0b09322293962fd72bda2746b5e446ee176ad48f275c84601549d0a70),
  (false, 0x6a8bd9dc42a657e933a8d775dabd30e245c28ab041084aea3e3b55e7ea2d42c1),
  (true, 0xc4bfc90afac57bab865c528292620be06399835cf740234f93a38c08c4183d58),
  (false, 0x5662cb12d538dbfabb68ab6d4c22a1c04a1dc88f8fc4a4d327596eeaa32e1759),
  (true, 0x4ea0daa54381eccfd69f5004b8e68145b23b787b79e16914301dbd648ef0140d),
  (false, 0x56f7b87bfab14a26476110ba5c5de226fba2bb55be1f980d57a59324e9450861),
  (false, 0xc2b84b6c7a201f0101162c4c3ee483b1fe5c431791db76941874b5ed2f7ee473),
  (true, 0xa81fda848da8931d765c3e46d63d4ac5b8287b5c138d74ee6bf6b9ba2b4fc2c7),
  (false, 0x4da71139102cb68a454ec12917859e2992226a7bec363ed6234efd1d595644e6),
  (true, 0xf729185a464fc7e3b694afe6c82a7b1619f198b8ee901a92472cede7ee9286ef),
  (false, 0x2c37d19c7cafccff4a1fae28df4e4a4e3d3a4fc9ae5f995d487c1f2447b64cc8),
  (true, 0x50e04e127d5f199fb12b94118d5a1ac322cb3bdd23a79323113eae5d45368d76),
  (false, 0x146934b96538b882e2bac33d25141c7cb701e0a3380e3607d45278ae43bcfadd),
  (false, 0x2b7438e79a4f5a2430c8c84dd1f2fa7082d83b781514c1720c9f00cbed3b852f),
  (true, 0xa032eb0660f3d2a6747dfec94e068b6787b6d2dd4450f2c669c86e2770df6400),
  (false, 0x4149f77950d05b8192def7b6eff59801d2a0566c9ba12cb48d1a7d1728e28953),
  (true, 0xa59aa1b51f8e8da51bb8549d8fa642f24b9f7719a560ef6e35d38af4569e09db),
  (false, 0xac6752ce2f6319254eb10cb31a6bb274e610b39437e181f929be340d4c1f8c72),
  (true, 0xa70d161b901af290724c7685d315050f176233c833142e9b7bdfc97473b1107f),
  (false, 0xec229f70507f0ca38f3f7af43488b62d19571c14a2449ee3b03d20f7eccced8f),
  (true, 0x5373712ab93710af412c924beee6a4eb7ddf72eb877d13040c2778b10313078e),
  (false, 0x3e8fd2be29758dc10914ca0465b146ec7611762585f8ae1be6a962946c693815),
  (true, 0xe247492b8e5866e6ee18fd530324052531ee190c1e06808627fab69d0c9d513c),
  (false, 0xe015f29fb3a42841b8433e747cb4e0022325624e5613671d29ede5030e5091cf),
  (true, 0x634b7366c6e4bebd20c32ab165a2f4abb15ba0209b9ae7c45c2ad58ea9c77354),
  (false, 0x8a1f096fe8ba9a6ce81aaeec7537737c5b92eaa6051e1e4245c7fa742a924fb4),
  (true, 0xef00db3e25dbe969ade09388984cc75fe0aa0e5fe7c00046fb16334da3cd2988),
  (false, 0x19b813c81558c2172c424ebebd74d5187c64a8870a3fa493196d20bd2985b56),
  (true, 0xeac1563bcfd888de09fc7fcbe871bc562c4b70f1240a8846a900c66fbd2675ca),
  (false, 0x8474e018b6ac5b589f4749e1b38d6adc60a22c9eddd99afdd8e8d6044a4d4e98),
  (false, 0x8df6afc453659936eaa14ccfa4cbd75a49199a5a40838876176e6da39d169bc2),
  (true, 0xff5caf8da8deb38d5833f1ef0047eaf5331a5e49802cb29843c99257ffab9b9e),
  (false, 0xd8d4c3fb404a84f9a0146faf112eb5f7b8482cd2d86a4736dfdb78f4bd319ba9),
  (false, 0x4026935e27333c9997ed5080700d1fe587b0a10e52f3668cb1ff2e53bef165a0),
  (false, 0xe91116989d2c29ba1c402a42220bb6afafd7a1d89c0f7cb6f1415f6b30d72782),
  (true, 0xb9431bd34b02aced50f20c6257e46301867c5a638cdf4f97d6beaabeb0b9d37b),
  (false, 0x9b5ce7f66fb114a71e108c251df1485ab6f06b1e5babf4062feaeef8390f74b),
  (false, 0x39823a814982236ee6a11487982e893d758c2a2220c8b90ddb245fcf7db25e13),
  (false, 0x3724c9e4be4072950bfe2e6f6cc5d9a65ba15ecd671edff008bb8977b40d58e3),
  (true, 0xf5f3756d498626e2c95941ce03d19247a0006ea31ba8a9c5708e9a6ed184b3a8),
  (false, 0xc693b7be868b7aafb474c7db3a3828e044558002902955a4dbc8591b409d3d1b),
  (false, 0x5b0807dfc13b599d28fc2aa490479cde20ec29a0f79d1fa41ba2d44364eb164d),
  (true, 0xc4e0783865ffdb796c466718af80a7e0cb988f8f821b4d84e09287ee3f8f03f5),
  (false, 0x1b7ae9164f9be251eac12e6b7c1ba3e2ee99693aa9bc790e19af19181d90cd41),
  (true, 0xcd2cac7dd8ccf1646e4a621d7a299a9e0f2fe2639638044e8577fa0f5d91f425),
  (false, 0x98455235999e1e64ebb7e53853d08ecc54f26431c221315dc79c2200f1b28e62),
  (true, 0x352aa3669ea4a9afc9b01dbf934cf495b6147d51ebfd599bf2bc91057f6f6211),
  (false, 0x5ca4695b3a293d70d533ec2967309a049b77e935e713bf016bf8d3aa8e2e8691),
  (true, 0x95fbbe8eda94faded0d0aea5cda033efc6d22a7200f904ca79fb75617324e8af),
  (false, 0x8e3fa477123b584f2d50b6f126ada57e27a8f2868ca91f8fd9ce85a1f920cf12),
  (false, 0x3b49c33d536bdb2e909079c762d2053f34997113063cf72adcab7d7ddec9faa9),
  (true, 0x1f2ec02e6466b6d8c72f9d7f5d8ecd7033ab03d07baaaa43ce78c20480d033e3),
  (false, 0x62c33e0b9150e0608b29448fb56bcef22513931a622e8631b498ae54b22262a2),
  (false, 0x98706a34365fc35f0bf58006b8086053e00baca29dff996227401c8ccd9179d7),
  (false, 0x754e3f3b8b39783ae1d98f7bed4a33a9cb83a2dcf3dd96af1ed15030279b19e9),
  (false, 0x3c068fd60f94049af681c73e180ffcf374dc1a14a9af44c5f810584e384308e0),
  (true, 0x8458ac5ebc5a27d0fb0bcad02e3c633a74b7b3f75d9026b0baee96d5a86e6447),
  (false, 0x43ad50f41bfa633e57f69e14ee4d5a7bbc3bf51c9146b7eb88fdb7222c3eb6f3),
  (true, 0x6e7ac2b4002d16383bbb76e19c46d11e4943d406572749ca6437226f5ed5e0af),
  (false, 0x66b7745de248b97277a5615ff0bb462cf6e3c3e46ff057f7cce290d68ec3315a),
  (false, 0x68723255cb589f934be2b1545a295f0260eea2b5de3a4a9e94f804ebd5eb2ac4),
  (false, 0x75bce0217ca8b8c758150ce70761406c45bd0d802840e0d7d93d29a8a0b8b164),
  (true, 0x3ef132cf7d12bdc105260187684881700060e59cdd9bfb36f8b013e06b3db0),
  (false, 0x5e17c94bd2c6d7b61037cf67c54c31856932b27be78c6d84d13c0df435b0e418),
  (true, 0x11852c88e53cf13c381f4f44770421a8edeb1a2aa5ce0ab2a4bac0e9828dfd5e),
  (false, 0x69b6343cd46e3261cbfba536047eac826a6e5b069d0511ed854203a27dc2d6ad),
  (false, 0x1d3fe586613e4a9815c3ccdffefedf1f536fdfc332940ccc5ee0db4890ef4566),
  (true, 0xe913bd3cc40444a7a62bd51a89b61dc8310e47f94c8f56737a7166af88bcf547),
  (false, 0xf839838e5ea18c0c3efc4d8a88787af906a6abca84884bcf498e6353b96e4ae4),
  (false, 0x2d5c87588d26f9c1cabb2ad6143c9145ca8a25067d0d0a1d1a941ac54f1e9ea8),
  (false, 0xc9633d6252ea9df0eda9df6c2913cead0ac51d4cd58e74f5da5e89ea5d228b0e),
  (false, 0xe271ab4ebd11fff0ec68a819b151c9ad16b2402b2fae6c2220fdd66672bd4063),
  (false, 0xd36996ae84fdc0707b26792cdfab4100a637ffa1177d4a6e9b004ce2e8e408ee),
  (false, 0x82f4035a2f943ba8d23b2fd98a9fa96b84620ffd6fb6ac5d80d2d89c955d0442),
  (false, 0xd9e9badf10498fba162eb6b719bde60c1168f5c29a9c252fc5359bc67bb0daab),
  (true, 0xd58e4dbb39976789cac864c457839241a9600925ae5f118e90b5111e6ee5f145),
  (false, 0x67b0b964a2f26f16045e777230c8030b954ce902aad8a9d72f137f3ec973617f),
  (true, 0x8030a1ab44fe730e18afc3f42dd9abe34c9266904e5b9faf883c32b833814b17),
  (false, 0x5bafce2495f2fa0e74c1c0d3eb547c30a3bdb10201f9724e370643cdd2e06c4d),
  (false, 0xeaa21ee4d3193ebfd4ff0cd3a3850906f761b0696a90c5a245d1acae275021eb),
  (true, 0x9848ac3b1358d674d92dec61ab818763f5e3f09c18e8545572f1dfaeb4154bca),
  (false, 0x4b2f02323795cceff4fae57277f199eaaf613c32c04e08d2ffa33e825dc160b1),
  (true, 0x2597e05ab9ad7bab6c6042dc8b0a08020fc46a590057260d1343acbf9a9dc29),
  (false, 0x4dfeeeb6f36c1a9ca52e3abae72aff21f3f5cfc1f1763a5463cd3f9419518c9b),
  (false, 0x9054207d23fdd08ad96b38a135a128fb3ef816f72a9d5f1f52bdfd118ba86b4e),
  (false, 0x9cfcb3c3101bca8208a3879277013a90fde33d7e52688c097ada6a913a3e7f3b),
  (true, 0xfab655ddb77e8b9989c2effc19e228c0c72121537ebd7ec3c6a7e4d048847d2b),
  (false, 0xafd086d090b268755bdf504137173c8ccc46493d1d4201e9916a757f7b00dc70),
  (false, 0xa5539e4c2a0cea6c4ede3f6173797a79cf2787f06f7e96e45e56c87a2e153893),
  (false, 0x18338c0dbb8c4b2cc1c0beac6fe6aba94372e897eff057934f4f1ab15a411201),
  (false, 0xfbd1ede4f87d76496c35e8768d3cc737302aacce3580b0b9925bbae37021f505),
  (false, 0xe87d436bed4bff39a438dbc5e0f2a0ab3c426665c18963a027a08bf1b5481af2),
  (false, 0x6ef473b5991356ad1b67f3fac06178cedf101127229b3473a62ebee5a858903e),
  (true, 0xc9dec5ff3cfd2b46ca46f2e1e2462aaf8500d13eaedffa5622486431a4defc0e),
  (false, 0x98878284e0dad18c26ef85a11e64f28c050b597a75718c02f4b113be0d7f4566),
  (false, 0x54872f7c6339d01480fd341fd5d2488dfd73172d95ed1155432e6e89d3398c0),
  (true, 0xb652eafe317f809ebd0d0babb231eba646f4bf5b1c3e02f7e018073689be34d1),
  (false, 0xaeafae58242a90e531e26ad3754e9a553b88d37d07cae8e35fa4185aaeb6f158),
  (false, 0x9b3f6216667833ff2a4bbcd12ac27afe4a51a2d3b07eb0e78d312eca1f7159a1),
  (false, 0xf6c614511660dd458e525fbfb354aeb10fcf1e624c2f26086ba3729f78386cc0),
  (false, 0x2fa523c29a33f7934f4e62b53aef395863ff174d933527da8937c26b6a5c9c60),
  (false, 0x60610490a84968ba2933cdf68cdfad9b184ba2853935fd774bef4e64377ba489),
  (false, 0x3b9e1fd3f452018f0e9c2ee69240a880ee147a50256c489c9338d92cacd255c2)]

/-- The slopes for BN254 `G1`. -/
def bn254Cert : List (Bool × ℕ) := [
  (false, 0x244b3ad628e5381f4a3c3448e121024631a10fed0e5557e9ed186911225dbdf6),
  (true, 0x1d7829358c6b59547bbabadd17120cc967c00abe4b1758e322f990633ee9a75f),
  (false, 0xe961a40abfecd3902bb1c8e3868f2f06a8e6111bb6072b6104efcafca7fa6a0),
  (false, 0xb98b758c06981308b79a1a019a4b04010da58f80b6f8222a5d89ee7855f6456),
  (false, 0xcff828bafb248c839cb800c24b8a47cc46daf2fd5c2f040278d01985527272c),
  (false, 0x2256e093565e4984ded667fc6496031dfe0fe653a6ec989265265b1fa025fae6),
  (false, 0x251b3035663e7e72c895811a4c9a83698329e3065ade57e3b20c3cf2d1d28208),
  (false, 0x1767741ab1f087c8b7880487423379ad3aa38e3758a05b97fe487ba9f6408325),
  (true, 0xd8970a1e71aaee536486d81b29eb34edd1e1de9f42f7878047a0c22e27f9f77),
  (false, 0x116a74e67ee4848e6f61cb713f5369411c844259efa635a641214f6e33b0fb89),
  (true, 0x731dd40d65955f07cdc0097d78e265f5874b4a3690cccadb4545bf193f8edbf),
  (false, 0x18b5190dc47a8fc2388d2e7eb1be103087916a1bcd4bac52b9b99019d79be8b4),
  (false, 0x2020edce0a784e6ac774151e3160c2382f646fc6c00d139446eece41741a97fe),
  (false, 0x1a48faebb3190a6f38f62b206455d444378f35fd1d1681a4b72fd171b3a6a3be),
  (true, 0x19185428ef39f8fc71c632d8bf590612fc846ea28669a43c8998439282f440df),
  (false, 0x16977aa83d87ad71978b57c89c3d6f10126be63485c6db94afb9eff33f49e493),
  (false, 0x27451181e3f178a29d5f8e315b3e6720e921f458016ed9ee9bb7e66ad382e014),
  (false, 0xbebc5e4a72832894dce797b023675d94ba4fb3a6a36dc63c5dfee849abad581),
  (false, 0x2fc6abf9f34d37080e5e40038ad78f066575d4dbe9f9c72e48ae6e350bf51275),
  (true, 0x2629f9ffea8f943cb4b4e71d3e7fcb2cd83d9efe6293ceebd8f3abfa603f17be),
  (false, 0x457284b49335a1a09419ee3fc70f2f477fff8854cf020b9e98045a2acb51779),
  (false, 0x15a8c261ed8e0f26105550369668c3035610ab4f4031396b3a2038d0fb0605e8),
  (false, 0x2fcabbe612d54c1febd318de5172e614e344ca7af1678e6949426b926bf26eb1),
  (true, 0x3af2678d9e247c18442a5f6a1884cbea9aeb17f4d97650134a22d9d6428c347),
  (false, 0xd58e8d273d42440642e028fa299caf4b6b60f364538a9b92dc8aa9c396a0047),
  (true, 0x24441ec661ab06146a0601aeade5f7d92b6bb9d07e6037afeb99c257bfc1e4aa),
  (false, 0x1d2293028efff851bfb5c2ac7480450a7c47ee6b548843100b75690b5f17569e),
  (true, 0x20cc17eb43866c188f5233aeed0e307fa80887a87554dd1c97e07a2182b3d8d2),
  (false, 0x2b6d2fa38bdae61a43e939fd275b5da1bd06f3823e74fed6562942fbd7cac6e2),
  (false, 0x26200d5429d515598024bfe610e7878a494e590700cdaa4f6bd465b60019a277),
  (false, 0x1c910be39023ddd1d07af27da09ca8ea16a0405b4db5b39088c26eeb6603d62d),
  (true, 0x2c8f443c9a6418ba8ee9a0c0e1003ad8d4f1c6e62079b4ffb2f7cd01286a589),
  (false, 0xc4662460028411b85bc48be77ceaec94ac833d4f7ce5a6f765bef5e2eb54704),
  (true, 0x15ab8ca6917a81e779d3a5204115e7478fb0bf75d1e5c4fa30e2cbb4af4cf27f),
  (false, 0x1fb4312a9027361afaff60fd046a03df6ede6503558b3616dcb5e626f6386988),
  (true, 0x4ce8d1a5e71424be1747557efd95fdb994b38b6f31f638ffb55b4fce00d71d3),
  (false, 0xae8014f6919e0274f0af2e3c37f022fb8f79c46508728d48adf96e03ea145b8),
  (false, 0x2f32de11a7f1beb19c3bd7a238726cef7e4b057511b48d9f6084b8148815312e),
  (false, 0x27c02623a8ffdba4116d8c720e3e90cd9a374b3bb259c2cb2a40742197743f6f),
  (true, 0x194c2176e3f30ab41f6460694f1f8eca03b0bb9747a2fdea7c6dfd21e7996684),
  (false, 0x14357e2bc3beb531edcad9c9f25bd2d1efa6e5ee8b5fe44132144cb8f9c7b444),
  (false, 0x2ea3308826defe77016240fbdcb96728a201e6e0ddc1d256939c6df3721a05fb),
  (true, 0x122da1676330aa5ff6bd0153d912dc244474585db9610289377cd8c58edabef),
  (false, 0x230e04bffa386851c1fafa06babc8bbb4234a0c29560cba942414141ad863dfa),
  (true, 0x22ef621bf0f9c2d226bae1bdcc8c218a63a249b2c00bf9179303d2a28caf914d),
  (false, 0x1878fcc85c1dce91658be516a7432b0270bc1f0a136921644da7d3f8510170c5),
  (true, 0x2a8a52af043646d6a23ad106e7d79330e60efdca49a8e79faf2ebe7d18342a1),
  (false, 0x17bb8c9e8957d37f901ef4e021c2d48c25514468863656d7bc971e63af5916d7),
  (false, 0x1dda5675ccc27bf681af2669823a2e82836679361947ae1669b1dc004e7a6e07),
  (false, 0x1442c245686c8b476cc84a5337dee66479a11777716e64f1963f27564cd51172),
  (false, 0x150b05bc01631d37449a18ac375dcca7f6be692491ff0a5a18fd0c4c5861bb2d),
  (false, 0x26e99335e96fe973cad007b35e14e37b3685b24860f0336d8919996c73a98d2d),
  (true, 0x6dc90c5a5be3eeb145e8f7c4101d2954e9e25b9cd6c4b3cb7805f660ac2c0de),
  (false, 0x1ee719cbfebcd3259f5a49d3c5099858aad98edf372816c163affc6054973019),
  (false, 0x6c143c5e6a1e24183de98f17fb81e13d8975f2befd0997ec872adef94fefac7),
  (false, 0x2cd6fc5fae79a080466a68cd70d2801526fb36037be545693e0f552b540af3a2),
  (true, 0x1c017a5d7c485bfb268f19d73d42aae5c8d6c621fc19b792dffd79ca4e702eb3),
  (false, 0x242128315ae5396c35862786096b149a114e5460da5ad3daff439ce9e7fcc5d),
  (true, 0x2e9bddbb1e401b18d7a607ddbc67d4b8d99858e329f95b3331cba4646c0a9472),
  (false, 0x8df6f9e9074dc9b4821f9f4319deee252ff56908a024accf49963f4284d7ffa),
  (false, 0x29bc6d3376b3e4f403abdcae00f7fb5abccd2ba8ff6d54c8014474987c2d4d5b),
  (false, 0x25f52c3ba81ddc7e1fac3cf0eb318176cb77d2e944925f5c15db595f86cf6e46),
  (false, 0x2e423aa097f39fd8877f671315d0ac97e254efabb066aa6071ca2dfb19e98e72),
  (true, 0x29d98a5e988e09aa9280005d340631578ebc6737fef56ae5f71af717a26cb704),
  (false, 0x14cbb6033d9290562d6d8d42132cfd47fd08b2bcdc61542f67df5bd0bff18e2),
  (true, 0x24be04367ede3907f9d3cf1d18ebef6c56b78620f037268f9e24e4540192e3dc),
  (false, 0x1f5c252e0c6d29fb807b56464c2b3ff32510ab753ea7e769e049f6d8335e46e4),
  (false, 0x2904d764ad868a63c312128d5cfac63b2d449bb1e010bc4001ff8423cf2b778),
  (true, 0x17b287e59f438bdc4b42cf5a2e8534fb9f9b5fad4db8d397775298d69139a11c),
  (false, 0x1dbfb1889fcb8d70cf3aa88c606610534b771910aab8af44358f8136232b040d),
  (false, 0x7d0e4de599e89a0bc21bc4d2bd7832bce267b1e16c133d72a651cf3d0618c88),
  (false, 0x2cf5a01d89d359a2ae7b4beaef0192270182845d1d56c4427dcaaeedac96b77d),
  (false, 0x1be7c36735c142edeed61917515c5e4373acb9307826dc2f53106b72b98150f2),
  (false, 0x2a930c420be9d7752987279c1f1505f995771c2c31e9eab166989a2c7a815572),
  (false, 0x1237ec0a92764e29f1e2ad621601b8cbf79d5560527ead139762d2040107d2d8),
  (false, 0x15e26273249766945affbd32c2dd606877ea793e57a60d0a43ed85f8739bcca1),
  (false, 0x1571e7c652b64f803cd992ba6229230a3941a5fe9e4c4b929a7638806c22f791),
  (true, 0x2018fc262cd5298575d3796c36a34bcaf4f2b2b440e3f8ef55a865ea082fb1d9),
  (false, 0x1f9fa64eefcf029fb9e8694bec446ce594875e2f64f066da77ed299ee5c2495f),
  (false, 0x1510801c397503143ba34d09a7a21362685724d9e5e9a5b658a87edfa0160d31),
  (true, 0x404c72b21c90840a957499653c28085d4f2776627ade19e07894002f80d0c51),
  (false, 0x17879a7b61a17c327d14a24949623da0393bc6202eb3a8e355e66a65d1478f71),
  (false, 0x4ce96142a13a74d4549dc4a88a1a52d15bf441a4220156a05855f16b2981b74),
  (false, 0x2d8aa5030be6913729bc2a6aaa3c603646309401d8d9f109dbeb8948ec639481),
  (true, 0x15efb1e5260a1579df2b950ccf79e5cfa80a02e23ca2ea7bc4625c671d25ed3a),
  (false, 0x1b49424c1e3f44afade93dee8aa12ac46dfc0b3809a878d7cb8d8099fa992b21),
  (true, 0x290e01a5992e687a1d81911176ca72f991e8c7c3adce7c7c244a3d4cf0c757f8),
  (false, 0x41fd67e6acb0ad75113dce319b19e92d68b30d2829dd20b00f5c509b917ced1),
  (false, 0xb206a52b063aa38ce840e8e75e1b5536c37c01a24c8f038d710fc7c294fd91),
  (true, 0x2238acabc51d290b68cf066704b049faa0e83f514e6796e5930289e896aaf9b1),
  (false, 0x1d50b7f61f62aaecf080474a170a18fc8f878bd5abb45fd350628a175d063b95),
  (true, 0xf043e86d7c2a00508c2ba11636c96430c4d9a51d3ea7c07f60dc4ad6f0e0e23),
  (false, 0xed1375ae600821d4acb9cc855931d7f067976d471e8b52c3abbe3f29537d838),
  (true, 0x1a188709e5b05d2241ce5dbf23ade6d5eaeb058705ced2ff50160a10c6e51551),
  (false, 0xb610e00597c96c1079176489bb7378a5c49024685c120b102e1efb6bea36d25),
  (false, 0x1e1ac59502c903441e65e9b29d57e7ef8cae98bf55e2b3725a377cd1b58b246a),
  (false, 0x1e4f85c08fb05978e54a2c6270592522f79527c3996b14a788a7b174dd063287),
  (false, 0x979894e03205744b1603e68c1a98a80e4c94e2d008e0ff2d495d3681c41819),
  (false, 0x195c5802e045cb7aef280e15a2c84df17a71e166d93733ad8fe39d0f5bbe7d94),
  (true, 0x1915e3020ad3da0547c24260c6190f5193dd2a8d1835e6a4ad8f779d3a8496ae),
  (false, 0x1f278a36a1a78529848782949af9aef8022a17ef838e20d96df589f656b640c1),
  (false, 0x2a6a13f925fd12d91e07f8a654852b677b2788feca31a4f3979e58b7b2c5d60c),
  (true, 0x4b258b07efba57d9e516f398d9caa5ea94169478fa74cc864101cb6976976eb),
  (false, 0x112b81a89b1c57c0e16c4c90057f8d5409d5a2a63160973e841b331e8bd799a3),
  (false, 0x9c5c687f1f3889e11dc89016d0c8d0a5527c09d63b2fee40825e8d30f6dc141),
  (false, 0xc20952c118eb9187ccf1c8d33fa608ebef27f0a2334b99e0ab6c536289d2f64),
  (false, 0x29c370ecda430fbf5cb240ac975f5b6716f3523eccbd169ddf2d12df6eb22f2a),
  (false, 0xcaadf0a15a58f18b77c537e6c98241a47c4d104d437c1bf39dabf2d43313c6c),
  (false, 0x19c1a075bc7593b7c8907a50e511976caaec45e8074f4cdb3f51ddb27012f384),
  (true, 0xd1c4ef7baaecceaa58721427001cfdd0086dace0daf045f46e91632887b2259),
  (false, 0x112f8842639ac7b70f58ea26773ac9996fccef0ac371e20d69891b6a2557669),
  (false, 0x223898e14545ad37ff32aea43ab66a0353126d0f1e2eaf9d1cea8b9bbcd78bad),
  (false, 0x9836d84d11be7c719a5e1e74c9e64c03901d04ce676567b978a0acafa57178d),
  (false, 0x2b9cb5e2e8af24419825950e9fcd82fe3d81391a267f354f12e49ec843e567c5),
  (true, 0x1ed89ecedcc5f612330afa03e44fb778e738e9ede665950d279d97b135710a4e),
  (false, 0x100f90727b83e58bef055543d46bd320011f44f2d18bc7f8e534dfa506df12af),
  (false, 0xc5d4bf3f7020592cb28f1e1d9f1d0f6dcadb4c2ea7d30b5e0dd20f0cdeb65e9),
  (true, 0x2c564adaf7ad7671c9fb08f523a86ddd1e4a104207e9ddd7194f939a1d5b681),
  (false, 0x1c73951fd06342aededcca39389cb9b429ccf4af9e4234e15a6f77a650f17085),
  (true, 0xb0f8716dae3087b8bcadc1a4daa361b6d48e83e54b0dbb9057e2573520f7b5e),
  (false, 0x2c52102203997f74e21ebef4f9855ebbbbf3b059c77108b8043265086ec26628),
  (false, 0x2847b34ec409bb674c4f794642c7479de7c66ec8c03d3afa08db4c01e63dbbd3),
  (true, 0x11769578116dc06f0c8815fb3d0a31b5419da0f1140dbb0fb8dc7d81cbee1e23),
  (false, 0x27a7beb14015700bc15c7155d27576869920fb9092d636b17fe7efe1983adeee),
  (true, 0x174ff468b3af799e067bf3c0bfad1a53b9ad031e71c155538271db67125c1ae4),
  (false, 0x2d7caa69d7a1116d8189a4730ae3df7c95e6b81669dc9b6f1a220d195c110444),
  (false, 0x2d0030544527548c1417669681f6c2a3cb0fd45cd7462af3837a3f96ea78ef79),
  (true, 0x1c4cd1c2441ce47c4f00dae4c1140fa78979fd3876250ca4b837359e60738631),
  (false, 0xe45e87b05b2269ba9eb8f94db1c0d4a2435c52d7e78bc8dc6576ed6446055fa),
  (true, 0x2414874c99f43fe495655d9a6f8ff5becb05bd3831f93a4b8c77a897d81fe92c),
  (false, 0x13ccc983156e70e4a6008bf7de3062ed1c94e8fa00eb63ceab61d6bddf15f080),
  (false, 0xfd96d3981d2353a23fa9147cdd2d1034a067430135caf1bd6da7a12937ea35a),
  (true, 0x14458cab61a97566f2487aab4c163600916409984ef63e54c639a197f58de65b),
  (false, 0x15bc91ce76532356c9069b9d241ff98aabf7bbc273934733bccb91ecc95f500d),
  (false, 0x22ddee6aa3d487d19122c25e9c02dd175bbd0ede00f2d0c809727c493a61e2a),
  (false, 0xd3ddaf67dc486c4f4bdf6f55dab14986d79ad6d20a4dc2e9870d75bb4957d37),
  (false, 0xbba0dfca1d05b6f7c9b10dc8031903c6cb0b0265a2f5553092d307c10bfe65f),
  (false, 0x2abf7e3ebdf4d35285e41a6234121f962a8382259b28136a42d14f377d60e1ab),
  (false, 0x1e658818827a3ea7092f30d3ea6fcf00dd2c4709b3ebe6b02f80377e16760c0d),
  (false, 0x1c614d4f7b4945aad1d9a545bc48ef7b3dc682596e9d7dc3ad697b3bbf0acc94),
  (true, 0xbe6c6096550c2002770abfb60911248c0d815e2db3165e5eb9c8ce9abb710a0),
  (false, 0x22eba99cca7cb917e62dc8b24aab0c033bf39d54ce561484813baf32e7ecd1f4),
  (true, 0x995ca4bd7ce0a5fa6982efe7d8cff890089e2191d3e73fde9e94ed58e117221),
  (false, 0x8e7975e05925b3ea9202938762244f3012e2660dd5040c8e0ab52444467be1a),
  (false, 0x14c0d266abc2aaef0f845aae2a267c37b7d1d56a53a430a3316a13d20a60a4ca),
  (false, 0xfc6e0c32524153bafbf9bfc1cb554fbdf67ad99995aa1799720cd6c01ea7642),
  (false, 0x20cfba8b50667d6d9d76db6573641a436186c023da874cd0ec8a4fe2a91f6258),
  (false, 0x6ebf8a821fe1b5bfe9f61b89a8d6a0dd0750ed492610a121d7c25dce77b1db3),
  (false, 0x1af1f4741583610e598125e8d5f1f36292d4c6078fb6b14d8b50c61d2ce2760),
  (false, 0x1317abf2a5faaa4861d9cb31e302174f1564337023cefaa59691280200b73e5c),
  (true, 0x1c135104515b102c6a18c747b8197cc6a8c5b20ca560858f9cb6e31fd6e3cd56),
  (false, 0x1f6fc1ba4bfdf888b6c29e842e1c73d2e3886cf73b7ba72678ed81fb0d550b8c),
  (false, 0x14d2d3a786d52237147cdec7916fde871307b07f338bc1384e17d168c4c3f598),
  (true, 0x24264c952e5476ecbe22ddfeb7b01c20a40eca1a2a25c74c1dd170322893643a),
  (false, 0x288d2a7f6a7792e708f861ac09a822b63dcfd6e21ddaf97849e9673d0df26350),
  (false, 0x1af4a4d2f3b19dd6fd8d198865fa15131d602fc5befea127daa13991488be26),
  (true, 0x2dd3a3c8202a63bd021b57aedc3cd6e148121dd4092f9f589cc0c3bb92976194),
  (false, 0x945941d38cb95e27bd0363f450925f715d46c7ba124d06f609557e3906e67b3),
  (true, 0x20aac072c205c3f1509dfd0983500bb163f7d6bc19d1f6523e0c79dc16103f14),
  (false, 0x92d7a7ea13295ffb39f06f8918ec7b14549ac93a148d21d05c40b7b1d4677c0),
  (false, 0x14bbd39e00706f30102c044a5319fd6610d47fd37fecd0a0e43adeae86de6aab),
  (false, 0x2bd14b9a9bf6f826403a81474f6a3bebf2ab4d943f89f2302fde326986c7d903),
  (false, 0x757fb3998139684197442dd7a05ba45dd94fbb59b9c7587465390654dba4f16),
  (false, 0x1f78fd5712554ae5a637f617610cef7c6a03179e0aeef8757b461e583af95ce8),
  (true, 0x15509de83e0914997be76a3837d8df6479b5c1f2e114d416029660788fae54c7),
  (false, 0x12fb40d06cdbd725464482ba649b93c8b55b27800647226122d0e4553b5836a3),
  (false, 0x22b244d5130e6b5491234a39fcae46af52071e42830d99953d9584b8ce0df4ed),
  (true, 0x2f35e307e1deb915a28daf6619b94c8dd996034133d5eb887e4aa5e85c19345a),
  (false, 0x3a70a6550bd73d72d098175dd37630268c08cf597cf1ba0fc0b24c8fd71fa34),
  (true, 0x1aa2a499408a855475b7dc24fc0d558bf34774e1e4fa2ff90d217842f1bb6e37),
  (false, 0x212ff59a9040536918e5b5123bf7df74c64e55eecc4962f8e37e765321d438c7),
  (true, 0x1278f17f5f29a664cc875447e3392d438a9504c0913074ee1b1dd1c42062656c),
  (false, 0xa42f8b891bcf0f0a7cefda6496263874bc631ff41948bf8f4ed00aea1013211),
  (false, 0x11fac73b8a046fbf95944afe752dfdf1f7fdd7d7801f7a2ed2805799353c86af),
  (true, 0x1d61d27be1fc147bf32382b655cb09415db9517676b31892027a43f83d7afe3d),
  (false, 0x21ed326a3d7cbd4d723a45044799ba102db5b1aefe8c1e2a9f36b9235572d612),
  (false, 0x45db853818fdc70795c86b9cede38871dec14c3d1d55a9eb0aa79631032e862),
  (false, 0x25a88106a601d5850b1a022cf599ef00137cac2233f8b3ae09d1284a3de58e3a),
  (true, 0x2a04062bcc045c64e3fd401f696fa7970b118930d33735a3c9a463f558adc04d),
  (false, 0x180b0ce25a74dc249e485a8bbebd9ee27be601b9dd1fee07e146812f10d37aa3),
  (false, 0x2e6ff53d8f2e90e314c3be1af21c38f04a6b5c93e8f9cee21be90ead9691fd1f),
  (true, 0x111d39268fc1b34f4e7defe60f707f98e67aecd13e327a58db7eb4ba9e43f564),
  (false, 0x19a5ab946a1f10e7618062141bd5c86e5bce73e872cca2d015633cf6f33bf3f3),
  (false, 0x14ad2f1c612e62b9278758e38a860c9d42263cc7fe26d2bef045bef4aaf03d57),
  (false, 0x2788816394c4d74575a332d396e7cc4778249075226963b2d18b532000113e0c),
  (false, 0x302ad7d40982853cc80d039dc1c41e90210583fe530c34ed2eb629c5d6ac70a5),
  (false, 0x56e1236874abca11f14edfc8afe616271c227d6168e59c49dffd31c328b6063),
  (false, 0x2b1444187c93e610a12176acc197dddbc977066b64d918680b3f9be4ace0ecdc),
  (true, 0x3e609e335c86daf80715586c7bf43799070f6ad3162c92e98f2c8c59b1eaac1),
  (false, 0x35fe16c92af220c1d1324c5a92c7b8212980a7396a88a94a5a950cec10a8732),
  (true, 0x2dca3c2eb5b50ca3f51ed38b302675a88e1a0419af2a0dad73710fcc2873d37d),
  (false, 0x5fe489e3d7fffba4a848d1daa8a10744ac891dd35152d6c15fd4619e5619b57),
  (false, 0x178dd10db238d3be05a57ca784a7e228234890e2fa835f7401aa2e4151b0c021),
  (false, 0xc3f593b3903a7abbf05ceecebf9637cdee1ed4d44ef773666530256bbba702d),
  (true, 0x28774400bf419e1dd92889af0e7be5a68b1705ee9c9259c7e691a3a0229c12b3),
  (false, 0x11a2329f0d2b4e37116bf5165536c183bf9a29a71986162b6ac7fab813b4147b),
  (true, 0x910db00f3522afd168d2c5367c0f3d78d2f2b7ba84fcf82e3a4c1b14d1165a9),
  (false, 0x15bf5e58d0fac51debc1c94fbd4eefc586d6b79f8f3f9bcce6beced06cc29ce5),
  (true, 0x1d800147ff17701fb677b526566bb9197a8ee964e0657fa3d448ba8d03c03d95),
  (false, 0x101d71cf2e884fa04fada61df5dad314a445802117be317c8e3a82a42a08d53c),
  (true, 0x21ecdfa932f5d01149b7ba6190f5bebb2dbb8987d8c3992c87123b88dbbe214c),
  (false, 0x176ee09abdcb8466f50ff813f4cd4ab58e6a2069fb5aab9dd6dba39fb3acd6e6),
  (true, 0x183c7f56180ec5c3d52bb39e070c77ab8642e678109b4f37b0a1e1437a6258bf),
  (false, 0x357822816269a44c06c671073b2e8d170af17f9746675af2606a5059da83c39),
  (false, 0x26a7c8e556132d0db44b1d47253a85c34ec6714ef7e5e82707fa6d7ca6e15240),
  (true, 0x22dfd592ca8d4423cbfe3ee9f8673c858b5b4fff2e1ec059745765d3f5b87563),
  (false, 0x2bc6ac7170b4450ef9c928dd5f36ff6ed6bbf210ceaa47e650d320e7b1598886),
  (false, 0xa19a0d34088177bd5e39bed6cb88a7b4bfbdf75d6bba4e08145cbd6c4f4c594),
  (false, 0x6069e8395bbe44247dfc6e78011ce1472d7a56f55d65b85032bfaec13ef46f6),
  (false, 0x66718e4349d7ef4a6a343e43512a54934bbe39132b0a818c3a994b7b09407d7),
  (false, 0x45c8a3961e8f0e435228fa47122046c65da6b8c7d7560874bdff2587a22b637),
  (true, 0x144d7d1801d7fc37a87497db8fb4526f938a0627fd4e6ead3b673229c6359f2),
  (false, 0xf9311c2e70426da42826bd7224526a4ecfc996bae985879f5b3c279ebe8c2c0),
  (false, 0x303769dd8eab6c29ee2c76b0d2c79ce1c7153c414e5c8829b22ca4c934eccb0a),
  (false, 0x29b5a6479253145ec6fa71b38a658cee0584e22183245f0f78c78484497e41cf),
  (true, 0x8ee39b97844871583f0c5328056206d28606439fe94b203dd62538b1d9739a1),
  (false, 0xadc8e12601996e2c755bad097f6814f539072314d2ae99e4c9f90b4498f2035),
  (false, 0x167c6c75c9e42c5bb3aea341a5548b08ace9566752844c3ddd4e16ecef903540),
  (false, 0xf2ee9db8e046082458146ea32f66575233b4994d330045d4cb133925d6a6b71),
  (false, 0x5a8f4d37d8eb541efcb77e6181e4f248249c6759702f2475885090c4564ba63),
  (false, 0x23fc3c8f08fbfe2080971ce9fe84fa723d7337c06754e2f670a8b1e250f92652),
  (true, 0x12dd77a63c7e0b1d6a0b79a3b48b651af6e6a41c04ba32f31665efdf95d80732),
  (false, 0xeca890d649c669cd8938fb69874024a9cd00792f89da49663347cd9ea199ed2),
  (true, 0x11c1f0bcdedfd92030d1b7f0a2b600a4e50ba7dce78642e9a9c147dc2bf12e36),
  (false, 0x18876ed3ad87048daacabdfc8f8a4af41e8b195e5e8afd483cbf9b9540459749),
  (true, 0x854e7aa2e809ddbfa990eb79b5ae447f70330568ed559f2c321622325b8b61c),
  (false, 0x12b20effa9ca62db37a3d48cc98e38921cffd178d5c8c4885562ead9b6e84ee3),
  (true, 0x1400a96dba905041cfdeab67a98ef3035b1fcfebcaea4205db70f56b6fb39),
  (false, 0x205c0bca38980b47a2436bc5da10c6178a88905d2765d1ac14ebbc595487c76),
  (false, 0x190606ffac1d3df77055315017e98bb3bc01783e168585a8312515a47ebba56b),
  (false, 0x25b1a10f4ea70c015c776da7560f21a85e2e8b12f1dfcf03468c1a4753b67fc5),
  (true, 0x25ac1199d83cc25e6c9ecbb4a27ba9670055f47a17c4799e43519b3a2bdee129),
  (false, 0x2c8856e030e03a8981c986a8085364103e3ca6457afaa7b2cf26a3ff3926b331),
  (true, 0x12ed1bb3eaf3fe93244cf522f91cfb3586266bc1730cfa9762fdcd975a4c8bd5),
  (false, 0x94bada0c2a76520ae83bad15a6b1539c34820fd39be33b36548b1a04ab9e21f),
  (false, 0x20d60ce70f30baab7e9b31ded3a653158e038acffde784c82cf5e0b21612acfe),
  (true, 0xed6698f6fbc5737b9fa27705d725e89042482bb66aba26200cfb9c35cf017b2),
  (false, 0x2f019fc0ab126e0ac86377dbab3c550229838191f995c595bca6cca76724b4ce),
  (true, 0x212565f9489f19cc55a00789ddfd85b34af62a79b9c7473fd12ac0156f856ac7),
  (false, 0x779ab181cb3f25331618812b147112ea5df61a5406d73400119c5b049d122e2),
  (true, 0x43597f3f7a1a1ad5a6777395b9d351fc338e617e457ab8b66c82cddaef0727f),
  (false, 0x149214e5dbe70587ff0f61a06c13db757c70cd62c486461412008aa7823f3827),
  (false, 0x9a3bef7682411722160861e27007b8de5185ce265fc29c789be5762218e0ebb),
  (false, 0x270d5efb825ba55c430b5c5a71f84c4912dba0405ba82bd967d0a3ccf6c61128),
  (true, 0x11ef6256e74fe9486758d914a212ff7df3fc6bff6327ff46cdefd553bebeab5b),
  (false, 0xca6ec11569883a7392892c6d6e555054e785601c8689eef0a84ae8a60319fdf),
  (false, 0x15404a3228833406d771218b4d90ba518be69f67a5cef9319c04a059cd95a180),
  (true, 0xc617373f1729c175354694d96b268fed7293c767561033cfbceaa382edc70f),
  (false, 0xde80c597506ffb08aa26263f261d951ea7a8fa3313b99cc0a3c41ca6c187aca),
  (true, 0xda89237fca881f49b91a713ce8400dc92ba7f4c7c54eea400009e5efc46f682),
  (false, 0x325be9a5a6497ecfa16e0e98f971efe43f21d158001aaaa735746664b692a93),
  (true, 0x28f23c488fcbf49f452eaf5da5e3526da766fc36d8cbb0ae7afe545eba5a661a),
  (false, 0x461c85d4404909e4658638684f3a126d899dbfda76618b721cc90c5744de3c6),
  (false, 0x19b4e8b6a36851d8511d22be57d260e7cfe283c3a3094053baddfbe0f7202f51),
  (false, 0x29653b3ac75cfbb0d11343246f2b263d6937bf4674f55d0b8c2769f3cb743697),
  (false, 0x1f32f77d3ff5368c1f4d7788afbc139230e99f499126bfc54d2bab562e4ab7f9),
  (false, 0x1a9016f2fd92266d1b45e5291954ee7f74026f5df250054cb00f67ed6498b903),
  (true, 0x1801a93613c153016e2ae6bef60796bb67866f65ae2de9259db128799484bf17),
  (false, 0x2df04c2dc9f1dd6a0b296b8da1c797148f46ed79b251290cf6a479d6c7b2a460),
  (false, 0x13cbdf52a74e874e5de6d76341eea0e4c6dfaaf76c2c08f4300327ec10a861a2),
  (false, 0x2f1a8d7f619caacd1e7f3109063fa15cfc7550b9e3a7f68c985e1cdd32b1c1c1),
  (true, 0x1ed6a5b2d0f7e34a7f771c4051ab90ecfbbe1eccd3e9580d91d41805bc02aa71),
  (false, 0x3f90020ef50ef013183acfa6cbdc41fdddf6464616279bd987de482ab6d8116),
  (false, 0x17b2670480f64263c86f40787394ef11bada6e427a6dbdbe8a5b0ca3379c68b6),
  (false, 0x1a10f99b8eb7335dee5cb3987e197b0b1136a3d9613347b91933c8d60b79b440),
  (false, 0x2821929916f7c0550a8820159d9527079e75b13e35f50fe129f7ccd13491b04e),
  (true, 0x2afb6cd8dd4174876fb647624eb274663b462d4f1ff555b5a8f7d8d1b3a4b9f),
  (false, 0x1737025e1ad137f6fcded04796fe7fb752ac3b87651968281128aa35c04b1901),
  (false, 0x17fb9f70320653fbf75b45c642f62e505fa7bb68479573da6587003b01688473),
  (true, 0x16a1c092d3cee3b45250b2840cf56119492a00075dc039fc3f2794accfa8bdc4),
  (false, 0x978ed0826091a030ff17d66de9b007728f79c70e79dcf6c1bec95a922760822),
  (false, 0x24fba357ab49d6fcd8778a36d82f44d33f0028512356b6880a935c20f529a9d3),
  (false, 0xdbd316a4401ffdabeed844c21edd205758e37604aa6cb722f6e478b9c87bec6),
  (false, 0x1a7cc0a22457ed9f6ed2e7f7677bc3bb4dab9fd2e9600347f1c6ceaab678e1da),
  (false, 0x193a759517edbed75ed67b286cfa075921211c5b7157414902a0405ea5c5223e),
  (true, 0x10ca57f24fbc63ef305c268664f707ae710c594e95ca6f6252d80cd0aca11101),
  (false, 0x1b503f719c0d232446354b81dedee24efb12ce0dabe4e5e4028072abeac7b9eb),
  (true, 0x2ae1494815b55d8c1295bef470e30f9c3b9d5ecde6954d2d5bdb407324c81c9e),
  (false, 0x6316f89b2a683cbe0e2d836fc7e8b40bf57834c882ebfd72355300ca3dc52de),
  (true, 0x1a473f7596853a2cc622abf7803b11cb56d90aa007ca3b1fbb75f9987f3a2093),
  (false, 0x112ac69b25aedf1c57bfdd858a633c64e213bed6571c2d8d16be4384adbad91e),
  (true, 0x25591440398d763199a300b58ebf59b583b270025f858d432008867667ee1924),
  (false, 0x1425f8c8e67d7b1124e9ebc9e66698196ba235bfda0b288b7c1f8036626a2733),
  (true, 0xeef78f971f44ce0fe195bbfdb78d6e742b0c3b689021fd08c3c9b98345c92c0),
  (false, 0x16ef2108d833d4701e0af8711ce3d35fc07ef08a3b05501f1182dbf79f977622),
  (false, 0x14a235b5fc6daf089defaf9bbe6928f0e9f0a5b93b91587108754895235a79c),
  (false, 0x28cb70d401b09f03851f69929421b11ef94dec3cbf2ef77770d2bcaa44945047),
  (false, 0x2126fa8f847daadc2709260cb3dee099a1d1fd49306040c1b76f4b0a9027312f),
  (false, 0x26ad428a8400c1cb8b07b2c320bdf0f5f5d93a089343f18fa67a79548deeac40),
  (true, 0x14d46a55ed85569eca73126bad7eb3021c2b311039c759885467756db98e2405),
  (false, 0xc1019f9ad28eff79ae4c79aaca8048cb7ec99928ae3b321a68d1364f8ba9ea5),
  (true, 0x2b909321aa6617f19f757ff5efdfb6972f49977555d558fdbbcb5dcd515bc0ac),
  (false, 0x12be5486802680c1db2af4107bd4b7158dcc7d8a093d0156d65b89eea9e917e),
  (true, 0x13c165a9c16d6c470fa330cd793bccef56fae7f36394677db91df486b668e497),
  (false, 0x185dcf5a05ec1ef404d97cb5308e5473ce87daa76f2954384228e890133dbea5),
  (true, 0xf6e90f678bf7b860aa218e4366ac0bdf3dfe764d820a2b01fc6b68faec23fb8),
  (false, 0xd14cd04acc48f4a626bb0c82df2546bd40a1546a4ffe1904838ac0cc536923b),
  (true, 0x168f7bede7dff322591979f2a032fa4a72e40270fa658fe7da5576732f74fd0),
  (false, 0x41b5bf39dcc6f483100b7cc1318d16c912438123be41faf27f123216a5a7dd2),
  (false, 0x85a968a080100e1c8ec4fef9eb12d106e76d4191d3043c596a3b7d32cbfb521),
  (true, 0x2b65474a6068663b17d0ff16451020a1f962ba0578c14ef8b06596ea500bed49),
  (false, 0xdf52e762496fa7d1623bcbf6342c29e4d3d07114e786b29bc67a27b29855d17),
  (false, 0x46d94197ac63f443bf5d56b89e8ad376348aac3e73812ba564286c93f7e7fdb),
  (true, 0x81ef7f8edea1eb6844b58914201c309c85996704c0d8749a36e3c71e250c64f),
  (false, 0x2bce751a66a0c1d0e94fd5d8411c8b8c8a0d66c926257980500866c8eaeb101f),
  (true, 0x25213f86b5b4e75604570a5f56215b8c29750e1b2ea550fea08bd047e8b28bd9),
  (false, 0x25bcc5f50aeda3288d964b633677a125d81beca89f9d9f0b9e6d8dae7b3aeaaf),
  (false, 0x8c47adb37d932755efd1f77486e63d7d467c197fe4c80ec201876905037e47e),
  (false, 0x2df6f16ad800f5ff58541fddf596a5c1ff20b5d5d7db45df6dc6143bf7c52a24),
  (true, 0x13ca70ed1693f62710c0bb4f82cbdb564f56d575e64f4a56758ffa257fc3bf8d),
  (false, 0x5085192402d00d88c817eaa927e8b85a742206abf3092d25f279643c7bc63a5),
  (false, 0x300729d4dfec0e9368061084271ee3ff6f7b65d5dbd6d145cffa1c17e8619f01),
  (false, 0x22755096af8bcf41561f4efd833b9327a99058ea3df1a007846cb4150cfe0c92),
  (true, 0xcd215c14273a25f3419a6268f903e3f73a2405de2391452924f2a6d74787de5),
  (false, 0xf6a4f273b950b0266bb87cf4a7675d4597f3708378d3814bdff7a19f443351f),
  (true, 0x8b026eded330832eb1ced5b09d323467f5733086387527b1b82a8343257869a),
  (false, 0x2d66404c74a46fc6330fc398be410a96411aa572394cb536b1442da06af327fc),
  (true, 0x1bf8c7bb94720af4b6a8289ac784d2dd2dfbf24e813832e54ade9c38358529ab),
  (false, 0xe5ee4161d20dc899c24ba12f40fd727772330deb68b8c9dbc73053845d99441),
  (true, 0x13ae82990bd0df9cda83e73b46e9ede241e7eb9cb7d46af11bec80dd7f636aa6),
  (false, 0x183faff29bc7234ce4ff36a1959e56f3028c5c8e843d3d9362f81aa775f5db8b),
  (true, 0xdb35c0a13d22d6378aa846b3f54b7a703f8c9daf758393cbeb125ae3e421567),
  (false, 0xf3de17fe1fd024ea26ea892062d7b7b87dacf42dec66a2ea7160b01826fe463),
  (true, 0x17605fd26c5e866723be1f5ce757ab9f2245950d4b06a8bd3f12f3e1e4e68829),
  (false, 0x273021a2296aee1d39768189b1051434b15d423a98cb38ec49d5e97dad435ace),
  (false, 0x240abf878ffcafcd1c936a1d668c4b9210f7c3f73ef5a4f62bd5925182f34617),
  (false, 0x22b67915c02d345abcdf4ab250c21047b4a072502b391aa3cbf6e0480453f0e),
  (false, 0x18209d4738ccdd095d0af05ca53336a11ad0552e9497bf7240437b1afb7af20c),
  (false, 0xc6d5cc2c25578cbfb5a6057c0e876fb6ba0cdd4d7b40f8ac5384d186d7d815d),
  (false, 0xd6ee858e4f024ed74c8811fd6729d56d27e475eeb92e59c4a5ef09258999379),
  (false, 0x265094859027fa50fbb51792d7192618522c54336e097694028e70157d7b1135),
  (false, 0x1d88921a8368d4ee73ad10a0355afff796ca74747fd1dbaa1e09ee1ab0d11aa4),
  (false, 0x2fc5d77504ec52cf143ce624bae3fb43552c8dca9a53fce0ac0f5427037d71fc),
  (false, 0x2d1706a6e9bd484093e09ae8129e36c07ffee3204614e19f14e3d278f506b016),
  (false, 0x12d801024879727ba748aff9d9291f7516d0094dd6f7909288c155942730bf72),
  (false, 0x2cff03b756b0e5c41f60a6b9b91b97d9ad0540d758f3ced0cff3628b0a83e3b2),
  (false, 0x22673e958c1e673562ac71786bb884d96c2b41982757d275a1ecec69c9f934dd),
  (false, 0x8d5d1c800dc32d43d15055167e25801cff3b7122659e23da1334715fd3dc2ae),
  (false, 0x896c414dd3e0803d8a35dabc672c9541deb64be0a2485bf8436607ccf393d57),
  (false, 0x233dc8e6ea4b1280f9a1c57aaa14e3ac2719189926e064ca6e9b21e0e7c431dc),
  (false, 0x18e1ff19fec26b66704e65d395fb336b13e9fa00bcc14443000c2432f3fde11a),
  (false, 0xa2f22ba685419e652fa540833d16692ee881ca6b7180a3cb871b33ac1590ed7),
  (false, 0x4776eff38681dea6005b3ec653f20cdee4dc51a9f9812180656918e93c907f3),
  (false, 0xe879c89382024ec9abe14a5fdb25aff73930d02f94c161586564731042e6240),
  (false, 0x923a1c39eb534e5e21c8fdd5e64aed15a8a134b3d3106c008e74f5159082cb7),
  (false, 0x1998226536e8378b4aa78829ae2a70367ecfeeef92b0832b00db592053517623),
  (false, 0x913318719a23f5d74dbeac8e020ccf7333f4cb0b4c955e4a7d0aed61714adc4),
  (false, 0x71a0606656bd5d073d6dcf93c85e95ae6f6ab25db7ef1191f9cced853323de2),
  (false, 0x17b3c8d7a71d652e4a2a6a32036c7530294747b9837130cdead0a329e484a557),
  (false, 0x19d0d0fed800dfed752986167c5f873013011269a177cac9331e51bd73d4e5ab),
  (false, 0x266d8a1ede905128be4166cf5d7be87904123f456a04533ce315af2d4fa6bffc),
  (false, 0x1df8fcb700d2697efcbecd3051bea54b885fc00fd54077df3637bb19f7608fbb)]

/-- First coordinate of the generator of secp256k1. -/
def secpGx : ℕ := 0x79be667ef9dcbbac55a06295ce870b07029bfcdb2dce28d959f2815b16f81798
/-- Second coordinate of the generator of secp256k1. -/
def secpGy : ℕ := 0x483ada7726a3c4655da4fbfc0e1108a8fd17b448a68554199c47d08ffb10d4b8

theorem secpG_pt : ∃ g : ECurve (7 : ZMod secpP), IsPt (7 : ZMod secpP) (secpGx : ZMod secpP) (secpGy : ZMod secpP) g := by
  refine IsPt.of_eqn curveOk_secp256k1 ?_
  have : (secpGy ^ 2 : ℕ) % secpP = (secpGx ^ 3 + 7 : ℕ) % secpP := by decide +kernel
  have := natCast_eq_of_mod this
  push_cast at this
  exact this

/-- The generator of secp256k1 has order `secpN`. -/
theorem secpG_order {g : ECurve (7 : ZMod secpP)} (hg : IsPt (7 : ZMod secpP) (secpGx : ZMod secpP) (secpGy : ZMod secpP) g) :
    secpN • g = 0 :=
  order_of_chain curveOk_secp256k1 hg secpCert (by decide +kernel) (by decide +kernel) (by decide +kernel)

theorem bn254G_pt : ∃ g : ECurve (3 : ZMod bn254Q), IsPt (3 : ZMod bn254Q) ((1 : ℕ) : ZMod bn254Q) ((2 : ℕ) : ZMod bn254Q) g := by
  refine IsPt.of_eqn curveOk_bn254 ?_
  push_cast
  norm_num

/-- The generator of BN254 `G1` has order `bn254R`. -/
theorem bn254G_order {g : ECurve (3 : ZMod bn254Q)} (hg : IsPt (3 : ZMod bn254Q) ((1 : ℕ) : ZMod bn254Q) ((2 : ℕ) : ZMod bn254Q) g) :
    bn254R • g = 0 :=
  order_of_chain curveOk_bn254 hg bn254Cert (by decide +kernel) (by decide +kernel) (by decide +kernel)

end H2
