import Verif.Kec.Spec

/-!
# Keccak-256: test vectors of the specification

The digests of the empty message, of "abc" and of the 200 bytes 0, 1, …, 199 (two blocks), evaluated round by round in the kernel.
-/

set_option autoImplicit false
namespace H2.Kec

/-- Two states with the same 25 lanes. -/
def EqSt (A B : St) : Prop := ∀ x y : ℕ, x < 5 → y < 5 → A x y = B x y

theorem EqSt.rnd {A B : St} (h : EqSt A B) (i : ℕ) : EqSt (rnd i A) (rnd i B) := by
  have h1 : EqSt (theta A) (theta B) := by
    intro x y hx hy
    have hc : ∀ z, z < 5 → thetaC A z = thetaC B z := by
      intro z hz
      simp only [thetaC, h z 0 hz (by omega), h z 1 hz (by omega), h z 2 hz (by omega), h z 3 hz (by omega), h z 4 hz (by omega)]
    simp only [theta, thetaD, h x y hx hy, hc _ (Nat.mod_lt (x + 4) (by omega : 5 > 0)), hc _ (Nat.mod_lt (x + 1) (by omega : 5 > 0))]
  have h2 : EqSt (pi (rho (theta A))) (pi (rho (theta B))) := by
    intro x y hx hy
    simp only [pi, rho, h1 _ x (Nat.mod_lt (x + 3 * y) (by omega : 5 > 0)) hx]
  have h3 : EqSt (chi (pi (rho (theta A)))) (chi (pi (rho (theta B)))) := by
    intro x y hx hy
    unfold chi
    rw [h2 x y hx hy, h2 _ y (Nat.mod_lt (x + 1) (by omega : 5 > 0)) hy, h2 _ y (Nat.mod_lt (x + 2) (by omega : 5 > 0)) hy]
  intro x y hx hy
  unfold Kec.rnd iota
  rw [h3 0 0 (by omega) (by omega), h3 x y hx hy]

theorem eqSt_of_flat {A : St} {l : List Lane} (h : A.flat = l) : EqSt A (ofFlat l) := by
  intro x y hx hy
  subst h
  unfold ofFlat St.flat
  rw [List.getD_eq_getElem?_getD, List.getElem?_map, List.getElem?_range (by omega)]
  have e1 : (x + 5 * y) % 5 = x := by omega
  have e2 : (x + 5 * y) / 5 = y := by omega
  simp [e1, e2]

theorem EqSt.step {A : St} {l l' : List Lane} {i : ℕ} (h : EqSt A (ofFlat l)) (hr : (Kec.rnd i (ofFlat l)).flat = l') : EqSt (Kec.rnd i A) (ofFlat l') :=
  fun x y hx hy => (h.rnd i x y hx hy).trans (eqSt_of_flat hr x y hx hy)

theorem digest {l : List Lane} {m : List Byte} {n : ℕ} (hn : (pad m).length / rate = n) (h : EqSt (absorbed (pad m) n) (ofFlat l)) {out : List Byte}
    (ho : ((List.range 4).flatMap fun x => laneBytes (ofFlat l x 0)) = out) : keccak256 m = out := by
  rw [← ho]
  unfold keccak256 finalSt
  rw [hn, show List.range 4 = [0, 1, 2, 3] from rfl]
  simp only [List.flatMap_cons, h _ 0 (show 0 < 5 by omega) (by omega), h _ 0 (show 1 < 5 by omega) (by omega), h _ 0 (show 2 < 5 by omega) (by omega),
    h _ 0 (show 3 < 5 by omega) (by omega), List.flatMap_nil]

/-! ## The empty message. -/

theorem empty_0_0 : (rnd 0 (ofFlat [0x1, 0x0, 0x0, 0x0, 0x0, 0x0, 0x0, 0x0, 0x0, 0x0, 0x0, 0x0, 0x0, 0x0, 0x0, 0x0, 0x8000000000000000, 0x0, 0x0, 0x0, 0x0, 0x0, 0x0, 0x0, 0x0])).flat = [0x40000000001, 0x100000000000, 0x40000008000, 0x0, 0x100000008000, 0x8, 0x300000200000, 0x1000000000000008, 0x300000000000, 0x1000000000200000, 0x2, 0x220, 0x40000, 0x202, 0x40020, 0x10000400, 0x1000004000, 0x400, 0x10004000, 0x1000000000, 0x2000010000000000, 0x20000000000, 0x10000000004, 0x2000020000000000, 0x4] := by decide +kernel
theorem empty_0_1 : (rnd 1 (ofFlat [0x40000000001, 0x100000000000, 0x40000008000, 0x0, 0x100000008000, 0x8, 0x300000200000, 0x1000000000000008, 0x300000000000, 0x1000000000200000, 0x2, 0x220, 0x40000, 0x202, 0x40020, 0x10000400, 0x1000004000, 0x400, 0x10004000, 0x1000000000, 0x2000010000000000, 0x20000000000, 0x10000000004, 0x2000020000000000, 0x4])).flat = [0x36305230006404e6, 0x10c339b88b760106, 0x2c31260010309901, 0xb402598888e60461, 0x8ec12c0011141902, 0x479c441202162, 0xa9834204a1850002, 0x8002a96207243bf4, 0x2986b00442e20013, 0x88030ae2a44318c5, 0x40002504a452186c, 0x298438083b9f34, 0x14c09a8c9df0c04b, 0x382e3020480c46, 0x54d1819819b14311, 0x1bc065087388d40, 0x254056d141076300, 0x442c006724388184, 0x22881640e2122040, 0x425040a620050f84, 0x10250ab408141191, 0xea18c00a90a046e2, 0x2252e3040181054, 0xd800c8a408a061a1, 0x2218340ad024160e] := by decide +kernel
theorem empty_0_2 : (rnd 2 (ofFlat [0x36305230006404e6, 0x10c339b88b760106, 0x2c31260010309901, 0xb402598888e60461, 0x8ec12c0011141902, 0x479c441202162, 0xa9834204a1850002, 0x8002a96207243bf4, 0x2986b00442e20013, 0x88030ae2a44318c5, 0x40002504a452186c, 0x298438083b9f34, 0x14c09a8c9df0c04b, 0x382e3020480c46, 0x54d1819819b14311, 0x1bc065087388d40, 0x254056d141076300, 0x442c006724388184, 0x22881640e2122040, 0x425040a620050f84, 0x10250ab408141191, 0xea18c00a90a046e2, 0x2252e3040181054, 0xd800c8a408a061a1, 0x2218340ad024160e])).flat = [0x7308cf19f675a28c, 0x24c8413593a231e3, 0x9f099d478b237977, 0x2ab7f95c8ac310b3, 0x8e28a10fc66873fc, 0x5d32e773b2b55c7d, 0x7d33980232045c83, 0xe28a2b70205085a5, 0xcc2cd7e324d2468e, 0xb74a863bf2536585, 0x5d369d3c79ba85a5, 0x22ed7119e3c4e384, 0x4bcc0c935097f374, 0x2e5dc77a860ca66f, 0x2dbeea71f1e35a7a, 0xc669dec7291539ab, 0x9f80d8ac374bb6cd, 0x91c77afe0262c26d, 0x2de8dbd4dcde6fb1, 0x46c24c7c739d6870, 0x783e0513afeccc1a, 0xa29ac517088ad63a, 0x1d20df7ecb8e7067, 0x655b7bf46aae9a3c, 0x43c735309c4e1439] := by decide +kernel
theorem empty_0_3 : (rnd 3 (ofFlat [0x7308cf19f675a28c, 0x24c8413593a231e3, 0x9f099d478b237977, 0x2ab7f95c8ac310b3, 0x8e28a10fc66873fc, 0x5d32e773b2b55c7d, 0x7d33980232045c83, 0xe28a2b70205085a5, 0xcc2cd7e324d2468e, 0xb74a863bf2536585, 0x5d369d3c79ba85a5, 0x22ed7119e3c4e384, 0x4bcc0c935097f374, 0x2e5dc77a860ca66f, 0x2dbeea71f1e35a7a, 0xc669dec7291539ab, 0x9f80d8ac374bb6cd, 0x91c77afe0262c26d, 0x2de8dbd4dcde6fb1, 0x46c24c7c739d6870, 0x783e0513afeccc1a, 0xa29ac517088ad63a, 0x1d20df7ecb8e7067, 0x655b7bf46aae9a3c, 0x43c735309c4e1439])).flat = [0x7eec1012f66baee6, 0xe6d2e4458cac18a9, 0x5096c520535f288f, 0x5adf5824750696d5, 0x2867f1088b8fd658, 0xaccfdcb0bd9bcea8, 0x5fd9797e9164980, 0x44a2cbf947e16cee, 0xaceb2429db2cd55d, 0x6a48fc23515ee2a8, 0xb94607983d4705bf, 0x1b1bd3901a486275, 0xf1c146f6afe51ec3, 0x10de9de4ef506c58, 0x6ac0b280c3c395bb, 0xf97c5fbe14ff3bc6, 0x19cb20108c838c96, 0x982b0cf11854f22c, 0xd75032de9743a238, 0x27f400cc90c3447, 0xf2facacde688afb6, 0x682013742aa1e73d, 0xce5665bb2df4e84, 0x279226377095e8d6, 0x634646675441ce51] := by decide +kernel
theorem empty_0_4 : (rnd 4 (ofFlat [0x7eec1012f66baee6, 0xe6d2e4458cac18a9, 0x5096c520535f288f, 0x5adf5824750696d5, 0x2867f1088b8fd658, 0xaccfdcb0bd9bcea8, 0x5fd9797e9164980, 0x44a2cbf947e16cee, 0xaceb2429db2cd55d, 0x6a48fc23515ee2a8, 0xb94607983d4705bf, 0x1b1bd3901a486275, 0xf1c146f6afe51ec3, 0x10de9de4ef506c58, 0x6ac0b280c3c395bb, 0xf97c5fbe14ff3bc6, 0x19cb20108c838c96, 0x982b0cf11854f22c, 0xd75032de9743a238, 0x27f400cc90c3447, 0xf2facacde688afb6, 0x682013742aa1e73d, 0xce5665bb2df4e84, 0x279226377095e8d6, 0x634646675441ce51])).flat = [0x2ca78d1fb0a64dc7, 0x6450dd6a88cd74e3, 0x6cce78e37be7ccf9, 0x5f5144ba9082b898, 0x50bd6ebb1a526d89, 0x6b68cee4f00b096, 0x1d0fd475cb63df7b, 0xb871c02c5547e2ee, 0x54e2ff6b9c6e656e, 0xac2400ff8481b1e8, 0x484fb645561a4af9, 0x5b2d34b2fa6df33c, 0x85ee3ce0c5e41191, 0x19852566623a33e5, 0x5623446d9c77334d, 0xc0041cd3a2e7cde2, 0x268a41a57a642f48, 0x7f274ee5a657e34e, 0x23cb54ee34c79a96, 0x4087455b7b69c9a0, 0x3c4eee45f0e96635, 0xf60516babe614702, 0xdd5dc346837e8117, 0x14a0e647eb74e246, 0x6875306431036be1] := by decide +kernel
theorem empty_0_5 : (rnd 5 (ofFlat [0x2ca78d1fb0a64dc7, 0x6450dd6a88cd74e3, 0x6cce78e37be7ccf9, 0x5f5144ba9082b898, 0x50bd6ebb1a526d89, 0x6b68cee4f00b096, 0x1d0fd475cb63df7b, 0xb871c02c5547e2ee, 0x54e2ff6b9c6e656e, 0xac2400ff8481b1e8, 0x484fb645561a4af9, 0x5b2d34b2fa6df33c, 0x85ee3ce0c5e41191, 0x19852566623a33e5, 0x5623446d9c77334d, 0xc0041cd3a2e7cde2, 0x268a41a57a642f48, 0x7f274ee5a657e34e, 0x23cb54ee34c79a96, 0x4087455b7b69c9a0, 0x3c4eee45f0e96635, 0xf60516babe614702, 0xdd5dc346837e8117, 0x14a0e647eb74e246, 0x6875306431036be1])).flat = [0x3714ec483b77561, 0x960390566a2c6ac8, 0x4c6550ed49562e97, 0x23dd64e6b0daaf2b, 0x91056dd06977d6c0, 0xb956f647c80e8d70, 0xea5c2241fd7b94ba, 0x134bb59f1bcf0247, 0x91452a19caf34f91, 0xaeab563906cf2385, 0xb866018a9e0bba63, 0x7f3ca8c6ba9c61d8, 0x8c679969c1cc1e85, 0xdac3103fbd2d1c5f, 0x9545a6fd2aa12e71, 0x3b60ba0daf5dd647, 0xc61c9aef7a406aff, 0xfd48252495f77488, 0x3e35d8a1775921f2, 0x86ea5b33f7b4acad, 0x7f2c4298932aa448, 0x75d1a9ec21ed8fd3, 0xb53baa7ab739a65, 0xfe0f5d774357647, 0x394cae2300e6c89b] := by decide +kernel
theorem empty_0_6 : (rnd 6 (ofFlat [0x3714ec483b77561, 0x960390566a2c6ac8, 0x4c6550ed49562e97, 0x23dd64e6b0daaf2b, 0x91056dd06977d6c0, 0xb956f647c80e8d70, 0xea5c2241fd7b94ba, 0x134bb59f1bcf0247, 0x91452a19caf34f91, 0xaeab563906cf2385, 0xb866018a9e0bba63, 0x7f3ca8c6ba9c61d8, 0x8c679969c1cc1e85, 0xdac3103fbd2d1c5f, 0x9545a6fd2aa12e71, 0x3b60ba0daf5dd647, 0xc61c9aef7a406aff, 0xfd48252495f77488, 0x3e35d8a1775921f2, 0x86ea5b33f7b4acad, 0x7f2c4298932aa448, 0x75d1a9ec21ed8fd3, 0xb53baa7ab739a65, 0xfe0f5d774357647, 0x394cae2300e6c89b])).flat = [0xff647574fd808ee5, 0xf7d9bdef0b0ecaf5, 0xc83d187faab6f1f9, 0x657b3d4b4f63bf5, 0x97300fca0282bba7, 0x770101d976c15573, 0xf7271ade017febfa, 0x42b9f7d70c5705ae, 0xcaff990ef3c91833, 0x697c3c858a8e3440, 0x75f63ab33135c188, 0x1c5de0b94e4e9954, 0xdca8d56a6eb23ee3, 0x6fbfb5a056e6c459, 0xeeebf6bff71634b1, 0xebd520e879a78d6c, 0x4dd8667cd028f448, 0xdab9a465a90b554e, 0x753935893c57f357, 0xfb087fd2c2e521c5, 0x72c54eb4855261a4, 0x82c7569247019817, 0xe136c0a064873906, 0xa729d20e42d31b67, 0x61eebd0e0e2d812b] := by decide +kernel
theorem empty_0_7 : (rnd 7 (ofFlat [0xff647574fd808ee5, 0xf7d9bdef0b0ecaf5, 0xc83d187faab6f1f9, 0x657b3d4b4f63bf5, 0x97300fca0282bba7, 0x770101d976c15573, 0xf7271ade017febfa, 0x42b9f7d70c5705ae, 0xcaff990ef3c91833, 0x697c3c858a8e3440, 0x75f63ab33135c188, 0x1c5de0b94e4e9954, 0xdca8d56a6eb23ee3, 0x6fbfb5a056e6c459, 0xeeebf6bff71634b1, 0xebd520e879a78d6c, 0x4dd8667cd028f448, 0xdab9a465a90b554e, 0x753935893c57f357, 0xfb087fd2c2e521c5, 0x72c54eb4855261a4, 0x82c7569247019817, 0xe136c0a064873906, 0xa729d20e42d31b67, 0x61eebd0e0e2d812b])).flat = [0xb0fd17f53ae92e45, 0x1d4f440a212924c0, 0xb6b9f5785215876b, 0xa8ebc10d7b748a08, 0xe45dbb16d8ca36fb, 0x2d50c83785b5ee32, 0x4646c94ffd3915f0, 0xd46e9a152672fd83, 0xec848c63bd941392, 0xd8968dcfed2d6f8b, 0xac196b6d0c6ce375, 0xc3dad3c06d317f1c, 0x68797a3ce839047b, 0x96faa603fe34647, 0xdf9252373ac663fa, 0xdf1772c56178e1b5, 0xa3e26e77ac8c9687, 0xb71dc8dd0a96284, 0x847c301eee5374b0, 0xca3604a2d2a6aa88, 0xde41f7b3bce1aca2, 0xcf4d4de020d8c994, 0xe069595b550bef2e, 0xba1d7f0d189010d0, 0xf513233c28f4dda0] := by decide +kernel
theorem empty_0_8 : (rnd 8 (ofFlat [0xb0fd17f53ae92e45, 0x1d4f440a212924c0, 0xb6b9f5785215876b, 0xa8ebc10d7b748a08, 0xe45dbb16d8ca36fb, 0x2d50c83785b5ee32, 0x4646c94ffd3915f0, 0xd46e9a152672fd83, 0xec848c63bd941392, 0xd8968dcfed2d6f8b, 0xac196b6d0c6ce375, 0xc3dad3c06d317f1c, 0x68797a3ce839047b, 0x96faa603fe34647, 0xdf9252373ac663fa, 0xdf1772c56178e1b5, 0xa3e26e77ac8c9687, 0xb71dc8dd0a96284, 0x847c301eee5374b0, 0xca3604a2d2a6aa88, 0xde41f7b3bce1aca2, 0xcf4d4de020d8c994, 0xe069595b550bef2e, 0xba1d7f0d189010d0, 0xf513233c28f4dda0])).flat = [0xe6793e2397506542, 0x1ddb637d149a8a06, 0x5b35a54e14bcffff, 0xcb5aa90388eba654, 0xa3a4bfc5a60473eb, 0x386aee2b513a1936, 0x6513d1f1219cb90f, 0xb8ec554e5f878440, 0x3580a2caed41269, 0x385bdf5eee3b532d, 0xd41099a6aef35b05, 0x262bc24121ebed31, 0x258932bf7f92e37d, 0x57cf2d18c4cd4f90, 0x1bf18ba20cfb0ba5, 0x9d56828b652f2b44, 0x8a1abfdf9d671216, 0xd32d5e80ee56ead9, 0x38c279ac8674cd62, 0x8e6b4f19f3ab9e48, 0xa101a4b68570f00b, 0x3646245c26b464b4, 0x1a0312ee4becc874, 0xcb1c53d72f8f5bde, 0xa5533594f4a600fc] := by decide +kernel
theorem empty_0_9 : (rnd 9 (ofFlat [0xe6793e2397506542, 0x1ddb637d149a8a06, 0x5b35a54e14bcffff, 0xcb5aa90388eba654, 0xa3a4bfc5a60473eb, 0x386aee2b513a1936, 0x6513d1f1219cb90f, 0xb8ec554e5f878440, 0x3580a2caed41269, 0x385bdf5eee3b532d, 0xd41099a6aef35b05, 0x262bc24121ebed31, 0x258932bf7f92e37d, 0x57cf2d18c4cd4f90, 0x1bf18ba20cfb0ba5, 0x9d56828b652f2b44, 0x8a1abfdf9d671216, 0xd32d5e80ee56ead9, 0x38c279ac8674cd62, 0x8e6b4f19f3ab9e48, 0xa101a4b68570f00b, 0x3646245c26b464b4, 0x1a0312ee4becc874, 0xcb1c53d72f8f5bde, 0xa5533594f4a600fc])).flat = [0xacb0712a8e67c328, 0xd12ee2d8ba7828bd, 0xe583c9f0adab0b75, 0xab20e819eccbaba, 0x40b16f59857c716d, 0x39620378d318e17e, 0x424b4bfe05838eca, 0xd6cfd65c9c7dee34, 0xfaba550e389966f2, 0xc60a3ea32a5b1959, 0x28643bbf7cf604cd, 0xd2dc698a5ffbaae, 0x4dee9a2cf0b9a120, 0xb0b47222035b2542, 0x1b67e710d1ae8703, 0x75e4051c3c9dba3f, 0x3cc5f4d4261a20e4, 0xad1c26e0b9e4f3a, 0x9fcf6bbd5d3004ff, 0x9699d7bf2c1b0f8a, 0xf32901aa2e4467db, 0xd4bd2c31d05f2a31, 0x77ef741da52cd5ab, 0xb7dd4de235ab46f0, 0x7f397de3f1cfb970] := by decide +kernel
theorem empty_0_10 : (rnd 10 (ofFlat [0xacb0712a8e67c328, 0xd12ee2d8ba7828bd, 0xe583c9f0adab0b75, 0xab20e819eccbaba, 0x40b16f59857c716d, 0x39620378d318e17e, 0x424b4bfe05838eca, 0xd6cfd65c9c7dee34, 0xfaba550e389966f2, 0xc60a3ea32a5b1959, 0x28643bbf7cf604cd, 0xd2dc698a5ffbaae, 0x4dee9a2cf0b9a120, 0xb0b47222035b2542, 0x1b67e710d1ae8703, 0x75e4051c3c9dba3f, 0x3cc5f4d4261a20e4, 0xad1c26e0b9e4f3a, 0x9fcf6bbd5d3004ff, 0x9699d7bf2c1b0f8a, 0xf32901aa2e4467db, 0xd4bd2c31d05f2a31, 0x77ef741da52cd5ab, 0xb7dd4de235ab46f0, 0x7f397de3f1cfb970])).flat = [0x26a5233f6438b6dc, 0xace3df49a43e3fd6, 0xc4086346dc94dc2e, 0x20ea8bec3236b3c9, 0xf229827eff26d05a, 0xfaf8f47d3f5f6884, 0x927d36f588a9b430, 0x11da5674194b4e64, 0x6da5e479dfd8191e, 0xbe1079143a68539f, 0xcadbd0cabd32fc24, 0xe9dd3bbdeaa3dd94, 0x76f97cf8108e2ca0, 0xd1107b058a44218c, 0xeea97e5c08f8ac49, 0xdaf2d4e0f2f78f95, 0x883160e013f90580, 0xb1a414213bf04ce4, 0xd44a7eda957d550e, 0x9e55b35d791cdc21, 0xd1dec853a1015ae4, 0x4c926ef6a84eef87, 0x6f0576229fa8aa0c, 0xd59c1598f6ce72ca, 0xaff83d1cbad917ba] := by decide +kernel
theorem empty_0_11 : (rnd 11 (ofFlat [0x26a5233f6438b6dc, 0xace3df49a43e3fd6, 0xc4086346dc94dc2e, 0x20ea8bec3236b3c9, 0xf229827eff26d05a, 0xfaf8f47d3f5f6884, 0x927d36f588a9b430, 0x11da5674194b4e64, 0x6da5e479dfd8191e, 0xbe1079143a68539f, 0xcadbd0cabd32fc24, 0xe9dd3bbdeaa3dd94, 0x76f97cf8108e2ca0, 0xd1107b058a44218c, 0xeea97e5c08f8ac49, 0xdaf2d4e0f2f78f95, 0x883160e013f90580, 0xb1a414213bf04ce4, 0xd44a7eda957d550e, 0x9e55b35d791cdc21, 0xd1dec853a1015ae4, 0x4c926ef6a84eef87, 0x6f0576229fa8aa0c, 0xd59c1598f6ce72ca, 0xaff83d1cbad917ba])).flat = [0xe215d0d659163823, 0x8683974493a469b1, 0xf64f37f10bf45b28, 0xfdee927ea471df68, 0x500c7269f3ee0799, 0x45d78ea405a3a964, 0x3557220b429a4d3, 0x3195deb85a7107ab, 0x3d502ddda7398a8d, 0xc2febbf32d430d7b, 0x917923e1a60bf1be, 0xc22dd9cf3e60efbe, 0x21ce54a25b74d00d, 0x9868de16a584c50e, 0xa62d01cd00859e89, 0xd1c3d4f6f08da26f, 0xb0be6294f4d17ace, 0x69da1afce162547d, 0x3c8a7b614f3cab7, 0xc5b26f28bfdb70e2, 0x795ad43d7a4beaea, 0x9d9bba34ab9d1948, 0x7be76f07d92b7c83, 0x1528c0dc1cce7e4e, 0x2831a3bf7aeeb33e] := by decide +kernel
theorem empty_0_12 : (rnd 12 (ofFlat [0xe215d0d659163823, 0x8683974493a469b1, 0xf64f37f10bf45b28, 0xfdee927ea471df68, 0x500c7269f3ee0799, 0x45d78ea405a3a964, 0x3557220b429a4d3, 0x3195deb85a7107ab, 0x3d502ddda7398a8d, 0xc2febbf32d430d7b, 0x917923e1a60bf1be, 0xc22dd9cf3e60efbe, 0x21ce54a25b74d00d, 0x9868de16a584c50e, 0xa62d01cd00859e89, 0xd1c3d4f6f08da26f, 0xb0be6294f4d17ace, 0x69da1afce162547d, 0x3c8a7b614f3cab7, 0xc5b26f28bfdb70e2, 0x795ad43d7a4beaea, 0x9d9bba34ab9d1948, 0x7be76f07d92b7c83, 0x1528c0dc1cce7e4e, 0x2831a3bf7aeeb33e])).flat = [0x5c7f04a9eb415daa, 0x4c44e75259f5833e, 0xadff9fb8251de691, 0xecc21e383b00020c, 0xd7f4ee69f1415482, 0x6e0e74df7917d016, 0x7ace3467e85790d7, 0x5c67f9bf8aa12768, 0x494f75d8f24f6d3b, 0xa06ab0f6f845067f, 0xe5e6f8f52e665057, 0x95c81719483bcf1, 0x2e6ebd9c061c2477, 0x40d303d8da5e09a6, 0x6ba6b350bf2473cc, 0x75ff6312b50b7ca0, 0x36e3e7649be5660d, 0x70815cace6248e90, 0x5d083f8a3f827fb4, 0x5b533d654e7c4f7c, 0x827f66994d03d4b2, 0x6db7286666d1dd08, 0x4974356a95bf7635, 0xa4f8fb3b401c504d, 0xe6a9dd54d881ee17] := by decide +kernel
theorem empty_0_13 : (rnd 13 (ofFlat [0x5c7f04a9eb415daa, 0x4c44e75259f5833e, 0xadff9fb8251de691, 0xecc21e383b00020c, 0xd7f4ee69f1415482, 0x6e0e74df7917d016, 0x7ace3467e85790d7, 0x5c67f9bf8aa12768, 0x494f75d8f24f6d3b, 0xa06ab0f6f845067f, 0xe5e6f8f52e665057, 0x95c81719483bcf1, 0x2e6ebd9c061c2477, 0x40d303d8da5e09a6, 0x6ba6b350bf2473cc, 0x75ff6312b50b7ca0, 0x36e3e7649be5660d, 0x70815cace6248e90, 0x5d083f8a3f827fb4, 0x5b533d654e7c4f7c, 0x827f66994d03d4b2, 0x6db7286666d1dd08, 0x4974356a95bf7635, 0xa4f8fb3b401c504d, 0xe6a9dd54d881ee17])).flat = [0x94b8714a79b4f579, 0xdd97992da9cc5043, 0xa7969c8e19ee2e30, 0xe17cb08c2dcb80b2, 0x93b4c73a176a6e8b, 0x930635ec94145a75, 0x62c1c8e04f0fe2f1, 0x6b8f7814668bd3b6, 0xfd3c7a8645daac15, 0x6664b42598dd1a9f, 0xd02899cb42351935, 0x6e073a60688d2f43, 0xf7a3bf7901c8a1b4, 0xd28bf4a883d9f707, 0x69ac15f15bc3caa1, 0xa10dff23d712efd6, 0xd25bf564ecb6bae4, 0xa2a205d32d1c77d5, 0x4cd0f337c02eb42d, 0xcd037f12b25f8c45, 0x91009dea8a079812, 0x42f7644e5c9ce5fa, 0xebfeac5f99d4ec3d, 0xc1a9909371a9524e, 0x446967526ece2d32] := by decide +kernel
theorem empty_0_14 : (rnd 14 (ofFlat [0x94b8714a79b4f579, 0xdd97992da9cc5043, 0xa7969c8e19ee2e30, 0xe17cb08c2dcb80b2, 0x93b4c73a176a6e8b, 0x930635ec94145a75, 0x62c1c8e04f0fe2f1, 0x6b8f7814668bd3b6, 0xfd3c7a8645daac15, 0x6664b42598dd1a9f, 0xd02899cb42351935, 0x6e073a60688d2f43, 0xf7a3bf7901c8a1b4, 0xd28bf4a883d9f707, 0x69ac15f15bc3caa1, 0xa10dff23d712efd6, 0xd25bf564ecb6bae4, 0xa2a205d32d1c77d5, 0x4cd0f337c02eb42d, 0xcd037f12b25f8c45, 0x91009dea8a079812, 0x42f7644e5c9ce5fa, 0xebfeac5f99d4ec3d, 0xc1a9909371a9524e, 0x446967526ece2d32])).flat = [0x1251936a8b5eeba5, 0x4aca96297139b192, 0x8182edc9f77fa479, 0x8293faa3877ace1b, 0x59cd706154e322ab, 0xef6ec5cf7b1b7ab9, 0xee37513a4f7d4e0c, 0x3700d6c3b2e813ea, 0xc4d7b805fc59d00e, 0x852cc5aa82014eaa, 0x8db34ca93c0a3c01, 0xc5c336fa1c78cbeb, 0x6f924cbebb1c8143, 0x20dd590c86345d40, 0x1927dbfe08689c5e, 0xe9414eae99fd861a, 0xa1a4155038e1f6c2, 0x55954c3799242d13, 0xfec57f37f0fbb1c, 0x1215638fe6a8666e, 0x1a6bf3c160d5e086, 0x1d936b379aaf3aae, 0x44be2462bf8d77fb, 0x24a8976ec4680654, 0x2714f4ee7154b4e5] := by decide +kernel
theorem empty_0_15 : (rnd 15 (ofFlat [0x1251936a8b5eeba5, 0x4aca96297139b192, 0x8182edc9f77fa479, 0x8293faa3877ace1b, 0x59cd706154e322ab, 0xef6ec5cf7b1b7ab9, 0xee37513a4f7d4e0c, 0x3700d6c3b2e813ea, 0xc4d7b805fc59d00e, 0x852cc5aa82014eaa, 0x8db34ca93c0a3c01, 0xc5c336fa1c78cbeb, 0x6f924cbebb1c8143, 0x20dd590c86345d40, 0x1927dbfe08689c5e, 0xe9414eae99fd861a, 0xa1a4155038e1f6c2, 0x55954c3799242d13, 0xfec57f37f0fbb1c, 0x1215638fe6a8666e, 0x1a6bf3c160d5e086, 0x1d936b379aaf3aae, 0x44be2462bf8d77fb, 0x24a8976ec4680654, 0x2714f4ee7154b4e5])).flat = [0xc0a57522c1efe859, 0xe69b77ec2c9da6a6, 0x742a4601a5f0e5dc, 0x17c698335125eb15, 0xbd1d5da6cb6e5fc4, 0x96de5a792e31754c, 0x4138ebae6a7cfb4d, 0x3b7cd6b3ea8ebf75, 0xf03c1a06392e26bc, 0x1612232072f44fa, 0x31342913c82745e4, 0x68ddc2ed8bc8d24c, 0xd99975f96a92d1cc, 0x25e266c9373f7458, 0x1aab65f4df45f0e4, 0xc5f388588cdaa834, 0x98c80570cb3a38e0, 0xbbd7e454c66c974, 0xb82928de1c884093, 0xed0519d874aeb66c, 0x91c4350b275f2c14, 0x5bf7eaec860b83dc, 0x4afca4318f8727ca, 0x5c69ca452b9ac7a6, 0x773d4efcfe30e690] := by decide +kernel
theorem empty_0_16 : (rnd 16 (ofFlat [0xc0a57522c1efe859, 0xe69b77ec2c9da6a6, 0x742a4601a5f0e5dc, 0x17c698335125eb15, 0xbd1d5da6cb6e5fc4, 0x96de5a792e31754c, 0x4138ebae6a7cfb4d, 0x3b7cd6b3ea8ebf75, 0xf03c1a06392e26bc, 0x1612232072f44fa, 0x31342913c82745e4, 0x68ddc2ed8bc8d24c, 0xd99975f96a92d1cc, 0x25e266c9373f7458, 0x1aab65f4df45f0e4, 0xc5f388588cdaa834, 0x98c80570cb3a38e0, 0xbbd7e454c66c974, 0xb82928de1c884093, 0xed0519d874aeb66c, 0x91c4350b275f2c14, 0x5bf7eaec860b83dc, 0x4afca4318f8727ca, 0x5c69ca452b9ac7a6, 0x773d4efcfe30e690])).flat = [0x74cd1a0b5c45bb1d, 0x2fdbbfd5e26e6c80, 0x3664fd7ade3d2112, 0x4d596e0a2082fd39, 0xda9866f1ad50d45, 0xd081df0aafb1c0f8, 0x3317bf0929c61cce, 0x8ac112aa8f94d330, 0xcdf09c15b803936b, 0x767832d8bbe71de, 0xe97b6951d0f40780, 0xe37353aed69d93b7, 0xbf467d1c1715b186, 0x39348c0471d52bad, 0x6aa26979de1b4ebe, 0x31d984e187fd0b3f, 0x787a7dda6b04518f, 0xf43c16480ad8a982, 0xe5d188994432a48d, 0x79d04865dbfcf654, 0x85263fdf3c61fb76, 0xb5eb3e9de6322f32, 0xd3b3770d01bad296, 0x21c6091f1b07df3a, 0xec5be23d9a252e3] := by decide +kernel
theorem empty_0_17 : (rnd 17 (ofFlat [0x74cd1a0b5c45bb1d, 0x2fdbbfd5e26e6c80, 0x3664fd7ade3d2112, 0x4d596e0a2082fd39, 0xda9866f1ad50d45, 0xd081df0aafb1c0f8, 0x3317bf0929c61cce, 0x8ac112aa8f94d330, 0xcdf09c15b803936b, 0x767832d8bbe71de, 0xe97b6951d0f40780, 0xe37353aed69d93b7, 0xbf467d1c1715b186, 0x39348c0471d52bad, 0x6aa26979de1b4ebe, 0x31d984e187fd0b3f, 0x787a7dda6b04518f, 0xf43c16480ad8a982, 0xe5d188994432a48d, 0x79d04865dbfcf654, 0x85263fdf3c61fb76, 0xb5eb3e9de6322f32, 0xd3b3770d01bad296, 0x21c6091f1b07df3a, 0xec5be23d9a252e3])).flat = [0x76a338eb96c92d7, 0x33484c2467da3a2f, 0xa00a123b70909768, 0xf9725637037dfec9, 0xb3c8df9ed9afe09f, 0x4f560e9256792297, 0x23d8af656de816d5, 0x90b7983de0e67ebc, 0x9b875a7f1e4c593, 0x63d1d365572ff328, 0x3cd41b33e0be651f, 0xfe2e681c51dcb871, 0xfa68ec5d2b44ce9e, 0xe209bf0e26dc6666, 0xd50e252d48f3400e, 0xfee5680e61a436b8, 0x5da6fe223a46434e, 0x88874b94bd7f6d01, 0xac675b1c243a04b2, 0xaf29dfee768ec58e, 0x3fc384cf44f72c9d, 0x77a9bfa813162312, 0xb31566f0585e1c84, 0x55a8e9df0c9dfd4, 0x53cb08a7274b89ba] := by decide +kernel
theorem empty_0_18 : (rnd 18 (ofFlat [0x76a338eb96c92d7, 0x33484c2467da3a2f, 0xa00a123b70909768, 0xf9725637037dfec9, 0xb3c8df9ed9afe09f, 0x4f560e9256792297, 0x23d8af656de816d5, 0x90b7983de0e67ebc, 0x9b875a7f1e4c593, 0x63d1d365572ff328, 0x3cd41b33e0be651f, 0xfe2e681c51dcb871, 0xfa68ec5d2b44ce9e, 0xe209bf0e26dc6666, 0xd50e252d48f3400e, 0xfee5680e61a436b8, 0x5da6fe223a46434e, 0x88874b94bd7f6d01, 0xac675b1c243a04b2, 0xaf29dfee768ec58e, 0x3fc384cf44f72c9d, 0x77a9bfa813162312, 0xb31566f0585e1c84, 0x55a8e9df0c9dfd4, 0x53cb08a7274b89ba])).flat = [0xef48b8bfeb2744bb, 0x654b0fed0f6f068a, 0xada6f64b2da58246, 0xe16ee8916777dd68, 0x351a1bc3205d7be8, 0x7733a961dc396ec9, 0xfe4447c6fc297f31, 0xa2198697b28d31e6, 0x3315496c0eda1790, 0x484b014d0533adbc, 0xc81f6372c288f986, 0xbcb01c04457d96e5, 0xa95796cf47e15612, 0xa030c2b49dda1ff, 0x8958ccf7679c3b5f, 0x5cb577cd8075589f, 0x4a018f11bc97d772, 0xb8d323349e6a70b7, 0xe5dee69748add5ed, 0x30ffe2ae183b496, 0x5cf98236a4ec69ca, 0x2604af7d93c245f6, 0xda0ad860a7ddf6d6, 0xdbd1670866d6a624, 0xa0a384a3442103c8] := by decide +kernel
theorem empty_0_19 : (rnd 19 (ofFlat [0xef48b8bfeb2744bb, 0x654b0fed0f6f068a, 0xada6f64b2da58246, 0xe16ee8916777dd68, 0x351a1bc3205d7be8, 0x7733a961dc396ec9, 0xfe4447c6fc297f31, 0xa2198697b28d31e6, 0x3315496c0eda1790, 0x484b014d0533adbc, 0xc81f6372c288f986, 0xbcb01c04457d96e5, 0xa95796cf47e15612, 0xa030c2b49dda1ff, 0x8958ccf7679c3b5f, 0x5cb577cd8075589f, 0x4a018f11bc97d772, 0xb8d323349e6a70b7, 0xe5dee69748add5ed, 0x30ffe2ae183b496, 0x5cf98236a4ec69ca, 0x2604af7d93c245f6, 0xda0ad860a7ddf6d6, 0xdbd1670866d6a624, 0xa0a384a3442103c8])).flat = [0xe7c975d8aefbf550, 0xa38f3460ada0ee7d, 0xe143b97d38d0df35, 0x40246aa05abb10ce, 0xe9b3782db6913304, 0x30cbb8a9a0834beb, 0xa2b410364559d216, 0x67d074beb826412a, 0xca4e92687ef87d6d, 0x219bdcc027541342, 0x7287620a39b8d589, 0x727a598d6e76600d, 0xacd076f2c449233, 0x4bdeec258e791d5d, 0x186d5406e4e958e3, 0x4ce14c632358ed5a, 0x9e2c7e0a7a1ec320, 0xb28753789ace8da3, 0xa7b0c9991fe8fe4b, 0xceac19abf26f1851, 0xcaeffec7b0507b05, 0x472ca39ea510f66a, 0xcc7b6b61bff78ba5, 0xf1764918625504ab, 0xcd384b9645c503a3] := by decide +kernel
theorem empty_0_20 : (rnd 20 (ofFlat [0xe7c975d8aefbf550, 0xa38f3460ada0ee7d, 0xe143b97d38d0df35, 0x40246aa05abb10ce, 0xe9b3782db6913304, 0x30cbb8a9a0834beb, 0xa2b410364559d216, 0x67d074beb826412a, 0xca4e92687ef87d6d, 0x219bdcc027541342, 0x7287620a39b8d589, 0x727a598d6e76600d, 0xacd076f2c449233, 0x4bdeec258e791d5d, 0x186d5406e4e958e3, 0x4ce14c632358ed5a, 0x9e2c7e0a7a1ec320, 0xb28753789ace8da3, 0xa7b0c9991fe8fe4b, 0xceac19abf26f1851, 0xcaeffec7b0507b05, 0x472ca39ea510f66a, 0xcc7b6b61bff78ba5, 0xf1764918625504ab, 0xcd384b9645c503a3])).flat = [0xe4d287a01f080409, 0xf3b08fc3bf083f01, 0x7e680663c87e4f86, 0x90a8ece65af85627, 0x2a3116b3fc59ec77, 0xbe7cfd4f0d27dd3, 0x30789d2a287bc677, 0x26b4f670e8cb0279, 0x1230a9c408798b1, 0xb903ec5ce1023cf2, 0xe8836c0824ccbe8c, 0x5d8d0a5fe34f0ff0, 0x490cfab0b0389c56, 0x4036e0c46db89d14, 0x67030540a22e3684, 0x33c47b3a83eeee7d, 0x3d0cbe5b21cca71c, 0xd084a6b8a202161a, 0x3cb73e2079d93726, 0x2e9ff3bf787fd2c8, 0x12e9dc1ef75368ac, 0x74670f81db392bd8, 0x789557cc0cddc3f7, 0xa0c829c5d7dbd624, 0xe38f4f2843106a1a] := by decide +kernel
theorem empty_0_21 : (rnd 21 (ofFlat [0xe4d287a01f080409, 0xf3b08fc3bf083f01, 0x7e680663c87e4f86, 0x90a8ece65af85627, 0x2a3116b3fc59ec77, 0xbe7cfd4f0d27dd3, 0x30789d2a287bc677, 0x26b4f670e8cb0279, 0x1230a9c408798b1, 0xb903ec5ce1023cf2, 0xe8836c0824ccbe8c, 0x5d8d0a5fe34f0ff0, 0x490cfab0b0389c56, 0x4036e0c46db89d14, 0x67030540a22e3684, 0x33c47b3a83eeee7d, 0x3d0cbe5b21cca71c, 0xd084a6b8a202161a, 0x3cb73e2079d93726, 0x2e9ff3bf787fd2c8, 0x12e9dc1ef75368ac, 0x74670f81db392bd8, 0x789557cc0cddc3f7, 0xa0c829c5d7dbd624, 0xe38f4f2843106a1a])).flat = [0x67a6b668b7823e97, 0x6836c186c6896c37, 0x5228a82d35ea443d, 0x1147f1f0d89e6089, 0x9e61b976def8787e, 0x425268b17d929984, 0xbb647912c69e8767, 0x7dfe5dcd8c02e555, 0x7d8a497e88d5bc58, 0x1fa3ea82647afdfd, 0xd716262751ecd3f, 0xaddf2b6362a74ade, 0xd1ae1668ee1f7b6b, 0x22e411de1ce7ae26, 0xb573b3fa09ab1497, 0x8a84d26fc954382a, 0x97ac3379cd19e543, 0x95b0a4d5625a494a, 0x1e25db0b8cba4e17, 0xd342634463487e3b, 0x5ab2266e5f4f1133, 0x29ed02739defd2a4, 0x5ff62da7fb015c4a, 0xc488556b6dd3a215, 0x24b8bdcde0e9ebd8] := by decide +kernel
theorem empty_0_22 : (rnd 22 (ofFlat [0x67a6b668b7823e97, 0x6836c186c6896c37, 0x5228a82d35ea443d, 0x1147f1f0d89e6089, 0x9e61b976def8787e, 0x425268b17d929984, 0xbb647912c69e8767, 0x7dfe5dcd8c02e555, 0x7d8a497e88d5bc58, 0x1fa3ea82647afdfd, 0xd716262751ecd3f, 0xaddf2b6362a74ade, 0xd1ae1668ee1f7b6b, 0x22e411de1ce7ae26, 0xb573b3fa09ab1497, 0x8a84d26fc954382a, 0x97ac3379cd19e543, 0x95b0a4d5625a494a, 0x1e25db0b8cba4e17, 0xd342634463487e3b, 0x5ab2266e5f4f1133, 0x29ed02739defd2a4, 0x5ff62da7fb015c4a, 0xc488556b6dd3a215, 0x24b8bdcde0e9ebd8])).flat = [0xb776c454221536a0, 0x2cc562aab665c6ac, 0x96854ec3f757a478, 0xbaf0e8c55c739718, 0x8263456ba091515a, 0x76626ac752f6f6aa, 0x4e6fb95a23376335, 0x6dd890fa0ac6380b, 0xe63e22ac7de0af2a, 0x9ecfc93f76589eec, 0xa0b01b1261ab6a01, 0xae3d547551959057, 0x16e9bf1d538d80d, 0x2167900ea6e5a7be, 0x7a406941f60cf465, 0xd3881a5ca182984d, 0xbd5f1e80592136c8, 0x9b8a935ba0ddf5b0, 0x242c1ecef1782e23, 0xf105204297c34be6, 0xcefb15ec5f89b0ad, 0xda47883fe04394bd, 0x668c64884a0ec53f, 0xa8511c9cfc53e49b, 0xf48efcf3a69e3a4e] := by decide +kernel
theorem empty_0_23 : (rnd 23 (ofFlat [0xb776c454221536a0, 0x2cc562aab665c6ac, 0x96854ec3f757a478, 0xbaf0e8c55c739718, 0x8263456ba091515a, 0x76626ac752f6f6aa, 0x4e6fb95a23376335, 0x6dd890fa0ac6380b, 0xe63e22ac7de0af2a, 0x9ecfc93f76589eec, 0xa0b01b1261ab6a01, 0xae3d547551959057, 0x16e9bf1d538d80d, 0x2167900ea6e5a7be, 0x7a406941f60cf465, 0xd3881a5ca182984d, 0xbd5f1e80592136c8, 0x9b8a935ba0ddf5b0, 0x242c1ecef1782e23, 0xf105204297c34be6, 0xcefb15ec5f89b0ad, 0xda47883fe04394bd, 0x668c64884a0ec53f, 0xa8511c9cfc53e49b, 0xf48efcf3a69e3a4e])).flat = [0x3c23f7860146d2c5, 0xc003c7dcb27d7e92, 0x3b2782ca53b600e5, 0x70a4855d04d8fa7b, 0x74a97cd82c9abb3d, 0xcb9b1161ecb0a2b9, 0x1f2211c4c0f9ed5c, 0x820dc6175fa24161, 0x81babfbcab8046d2, 0xb1d551b7242b765b, 0x3cf26d5eba2553e8, 0x3bce6a98fe5b7210, 0xba7d9fa73545d2a2, 0xfa0d3cd3b03b15bb, 0x3bfed7eb12c7ce09, 0xeb829c854e19a949, 0x1b5d1a6545a611ff, 0x64146f400e16b72, 0xfe8734e16471ab9f, 0x9c3088bdeebb0936, 0xdee8b8eca7b2acba, 0x163b62b71dcf4521, 0x6b571b9910726d91, 0xb7fa22cf622318be, 0xa3fe1af7779fafd7] := by decide +kernel

theorem empty_perm0 {A : St} (h : A.flat = [0x1, 0x0, 0x0, 0x0, 0x0, 0x0, 0x0, 0x0, 0x0, 0x0, 0x0, 0x0, 0x0, 0x0, 0x0, 0x0, 0x8000000000000000, 0x0, 0x0, 0x0, 0x0, 0x0, 0x0, 0x0, 0x0]) : EqSt (keccakF A) (ofFlat [0x3c23f7860146d2c5, 0xc003c7dcb27d7e92, 0x3b2782ca53b600e5, 0x70a4855d04d8fa7b, 0x74a97cd82c9abb3d, 0xcb9b1161ecb0a2b9, 0x1f2211c4c0f9ed5c, 0x820dc6175fa24161, 0x81babfbcab8046d2, 0xb1d551b7242b765b, 0x3cf26d5eba2553e8, 0x3bce6a98fe5b7210, 0xba7d9fa73545d2a2, 0xfa0d3cd3b03b15bb, 0x3bfed7eb12c7ce09, 0xeb829c854e19a949, 0x1b5d1a6545a611ff, 0x64146f400e16b72, 0xfe8734e16471ab9f, 0x9c3088bdeebb0936, 0xdee8b8eca7b2acba, 0x163b62b71dcf4521, 0x6b571b9910726d91, 0xb7fa22cf622318be, 0xa3fe1af7779fafd7]) :=
  ((((((((((((((((((((((((eqSt_of_flat h).step empty_0_0).step empty_0_1).step empty_0_2).step empty_0_3).step empty_0_4).step empty_0_5).step empty_0_6).step empty_0_7).step empty_0_8).step empty_0_9).step empty_0_10).step empty_0_11).step empty_0_12).step empty_0_13).step empty_0_14).step empty_0_15).step empty_0_16).step empty_0_17).step empty_0_18).step empty_0_19).step empty_0_20).step empty_0_21).step empty_0_22).step empty_0_23

/-- The empty message. -/
theorem keccak256_empty : keccak256 [] = [0xc5, 0xd2, 0x46, 0x01, 0x86, 0xf7, 0x23, 0x3c, 0x92, 0x7e, 0x7d, 0xb2, 0xdc, 0xc7, 0x03, 0xc0, 0xe5, 0x00, 0xb6, 0x53, 0xca, 0x82, 0x27, 0x3b, 0x7b, 0xfa, 0xd8, 0x04, 0x5d, 0x85, 0xa4, 0x70] := by
  refine digest (l := [0x3c23f7860146d2c5, 0xc003c7dcb27d7e92, 0x3b2782ca53b600e5, 0x70a4855d04d8fa7b, 0x74a97cd82c9abb3d, 0xcb9b1161ecb0a2b9, 0x1f2211c4c0f9ed5c, 0x820dc6175fa24161, 0x81babfbcab8046d2, 0xb1d551b7242b765b, 0x3cf26d5eba2553e8, 0x3bce6a98fe5b7210, 0xba7d9fa73545d2a2, 0xfa0d3cd3b03b15bb, 0x3bfed7eb12c7ce09, 0xeb829c854e19a949, 0x1b5d1a6545a611ff, 0x64146f400e16b72, 0xfe8734e16471ab9f, 0x9c3088bdeebb0936, 0xdee8b8eca7b2acba, 0x163b62b71dcf4521, 0x6b571b9910726d91, 0xb7fa22cf622318be, 0xa3fe1af7779fafd7]) (n := 1) ?_ (empty_perm0 (A := fun x y => if x + 5 * y < 17 then (fun _ _ => 0 : St) x y ^^^ leLane (pad []) (17 * 0 + (x + 5 * y)) else (fun _ _ => 0 : St) x y) ?_) ?_ <;> decide +kernel

/-! ## "abc". -/

theorem abc_0_0 : (rnd 0 (ofFlat [0x1636261, 0x0, 0x0, 0x0, 0x0, 0x0, 0x0, 0x0, 0x0, 0x0, 0x0, 0x0, 0x0, 0x0, 0x0, 0x0, 0x8000000000000000, 0x0, 0x0, 0x0, 0x0, 0x0, 0x0, 0x0, 0x0])).flat = [0x40001636261, 0x3626100000000016, 0x4b1b1308000, 0x436260, 0x362610b1b1308016, 0x8, 0x6c4c1c6c4c200024, 0x1000000000000008, 0x6c4c30000000002c, 0x10002c6c4c200000, 0x2c6c4c2, 0x2c6c4c220, 0x0, 0x2c40606c2, 0x40020, 0x1636239d898400, 0x1000004000, 0x58d898400, 0x16362610004000, 0x1000000000, 0x4362610000000001, 0x20000000000, 0x63626100058d8985, 0x2000020000000000, 0x58d8984] := by decide +kernel
theorem abc_0_1 : (rnd 1 (ofFlat [0x40001636261, 0x3626100000000016, 0x4b1b1308000, 0x436260, 0x362610b1b1308016, 0x8, 0x6c4c1c6c4c200024, 0x1000000000000008, 0x6c4c30000000002c, 0x10002c6c4c200000, 0x2c6c4c2, 0x2c6c4c220, 0x0, 0x2c40606c2, 0x40020, 0x1636239d898400, 0x1000004000, 0x58d898400, 0x16362610004000, 0x1000000000, 0x4362610000000001, 0x20000000000, 0x63626100058d8985, 0x2000020000000000, 0x58d8984])).flat = [0xb6b21630dc026e64, 0x52ba4c56c5443c02, 0xded88d32d221a9bb, 0x535904cb1907aa56, 0xe991b3eb3a57a2ac, 0xeb855fc9f3e0a146, 0xc8dc57e61ea49e20, 0xc79089c798424af5, 0x27b647be0009fc0a, 0x744d8cf0e8f16279, 0x6f3510a79cc66f45, 0x1723ff0092b34376, 0x5e59853074605839, 0x918e737fd5e1ebc6, 0x94433808356fc6f1, 0x90a84b0c6728e506, 0xd4188ab88f232267, 0x2a670ca60fa64406, 0x11d916f3e7a3c06f, 0xac1fbeff27ca0496, 0xbca7ccc0ecc6a273, 0xd1aab11697c8054e, 0x870bd6f6841f1f6, 0x9326ada5ccef36e0, 0xd4ca5839a234e7ce] := by decide +kernel
theorem abc_0_2 : (rnd 2 (ofFlat [0xb6b21630dc026e64, 0x52ba4c56c5443c02, 0xded88d32d221a9bb, 0x535904cb1907aa56, 0xe991b3eb3a57a2ac, 0xeb855fc9f3e0a146, 0xc8dc57e61ea49e20, 0xc79089c798424af5, 0x27b647be0009fc0a, 0x744d8cf0e8f16279, 0x6f3510a79cc66f45, 0x1723ff0092b34376, 0x5e59853074605839, 0x918e737fd5e1ebc6, 0x94433808356fc6f1, 0x90a84b0c6728e506, 0xd4188ab88f232267, 0x2a670ca60fa64406, 0x11d916f3e7a3c06f, 0xac1fbeff27ca0496, 0xbca7ccc0ecc6a273, 0xd1aab11697c8054e, 0x870bd6f6841f1f6, 0x9326ada5ccef36e0, 0xd4ca5839a234e7ce])).flat = [0xc61779d91d24b16d, 0x6cefc4cdde848952, 0xa15378cc82c99dd7, 0xaea845d98752cd7c, 0xfbd0cd045a2d2bcb, 0x8c48d4e2154cad66, 0xab8aec7f7604bc0f, 0x7c7274eaf4518220, 0xeb07e061a78e4bc6, 0x97066857e55a4bd, 0xad7721e6cca59f3c, 0x1e981ba123872c56, 0xf6b4e45d717e6b09, 0x9bdbc6096c8d2bc2, 0x5e24ae020cd1508a, 0x1c61295aa9750d20, 0x48ec4c90ba0816d1, 0x94121d34c7b4eb2c, 0xe2e3c08ce6a836da, 0xbd18315e115166f1, 0xa2657100b036c63a, 0x6bc8115a14660210, 0xae05dc7782050c51, 0xfd5982e51a3dc97f, 0xe3c3caa7f63fc4c] := by decide +kernel
theorem abc_0_3 : (rnd 3 (ofFlat [0xc61779d91d24b16d, 0x6cefc4cdde848952, 0xa15378cc82c99dd7, 0xaea845d98752cd7c, 0xfbd0cd045a2d2bcb, 0x8c48d4e2154cad66, 0xab8aec7f7604bc0f, 0x7c7274eaf4518220, 0xeb07e061a78e4bc6, 0x97066857e55a4bd, 0xad7721e6cca59f3c, 0x1e981ba123872c56, 0xf6b4e45d717e6b09, 0x9bdbc6096c8d2bc2, 0x5e24ae020cd1508a, 0x1c61295aa9750d20, 0x48ec4c90ba0816d1, 0x94121d34c7b4eb2c, 0xe2e3c08ce6a836da, 0xbd18315e115166f1, 0xa2657100b036c63a, 0x6bc8115a14660210, 0xae05dc7782050c51, 0xfd5982e51a3dc97f, 0xe3c3caa7f63fc4c])).flat = [0xe0c2c79192c46b5, 0x5c76741a579886e1, 0x3a0180758acbf2ec, 0x2b459935eb34a4ae, 0xbc2d1c2ce932df28, 0xee8b9c4fdc46a6c0, 0xe1371e96fbaf5e5b, 0x2befb93d67f60fc2, 0xcb3c671c994edf25, 0x1bcc5eb3db7d9cba, 0x9f8f1c348c2bef4c, 0x4d6e61b6248ed041, 0xaf41a881e57332ef, 0xa3318d1b85e6baee, 0xd346917643b931df, 0xd8afef82fc4fdfac, 0x88553b2645021058, 0xa4a4c3fb8b5cfdc2, 0x182265eae5acd485, 0x7e838b9f32755c81, 0x320c917b3189056b, 0x1bc40b84fddc62e1, 0x83c91087c997ea27, 0xc8a268a4e77b364b, 0x6603c31ff29c66c] := by decide +kernel
theorem abc_0_4 : (rnd 4 (ofFlat [0xe0c2c79192c46b5, 0x5c76741a579886e1, 0x3a0180758acbf2ec, 0x2b459935eb34a4ae, 0xbc2d1c2ce932df28, 0xee8b9c4fdc46a6c0, 0xe1371e96fbaf5e5b, 0x2befb93d67f60fc2, 0xcb3c671c994edf25, 0x1bcc5eb3db7d9cba, 0x9f8f1c348c2bef4c, 0x4d6e61b6248ed041, 0xaf41a881e57332ef, 0xa3318d1b85e6baee, 0xd346917643b931df, 0xd8afef82fc4fdfac, 0x88553b2645021058, 0xa4a4c3fb8b5cfdc2, 0x182265eae5acd485, 0x7e838b9f32755c81, 0x320c917b3189056b, 0x1bc40b84fddc62e1, 0x83c91087c997ea27, 0xc8a268a4e77b364b, 0x6603c31ff29c66c])).flat = [0xc5752c04be27db46, 0xd9beccf1009052a3, 0x119bd71b38f3835e, 0xfe0af09f38737d1d, 0xcb6440aa531e8b9d, 0x59b642d62a957b72, 0x1987f654034a55a9, 0xb5f8602a00178b24, 0x6bbfe5cf6516cb81, 0x5afccbfd8626deee, 0xf7922f56982984a9, 0xec4f87a7605cb41b, 0x434fce57506fd61e, 0xe8d054ccb9d4d5eb, 0x87e279d24fbd580, 0x3c7ba22ff0e29e10, 0x2e8e40bb10d3c0, 0x29d85cf41443d097, 0x12ef3acf804ae445, 0x2d49e4a295cccabf, 0x81d3154478ae836a, 0x21a62b74900dcf6b, 0x5ef4a4e57ca56bc5, 0x5f8591a72bf748e4, 0xd7895a653211515b] := by decide +kernel
theorem abc_0_5 : (rnd 5 (ofFlat [0xc5752c04be27db46, 0xd9beccf1009052a3, 0x119bd71b38f3835e, 0xfe0af09f38737d1d, 0xcb6440aa531e8b9d, 0x59b642d62a957b72, 0x1987f654034a55a9, 0xb5f8602a00178b24, 0x6bbfe5cf6516cb81, 0x5afccbfd8626deee, 0xf7922f56982984a9, 0xec4f87a7605cb41b, 0x434fce57506fd61e, 0xe8d054ccb9d4d5eb, 0x87e279d24fbd580, 0x3c7ba22ff0e29e10, 0x2e8e40bb10d3c0, 0x29d85cf41443d097, 0x12ef3acf804ae445, 0x2d49e4a295cccabf, 0x81d3154478ae836a, 0x21a62b74900dcf6b, 0x5ef4a4e57ca56bc5, 0x5f8591a72bf748e4, 0xd7895a653211515b])).flat = [0xb8bf4f65f9169b27, 0xea27bcf57b85c834, 0x6c225d7d604c4ebb, 0x5ce98137eba69953, 0x1513adbe7b71d2cd, 0x1b4243588a86630f, 0x49651e06283451af, 0x3822c89fc802ce4c, 0xad095c1ac5c823e6, 0xa24ea521503cfb7a, 0x1e8c73e94b2a7313, 0xb3abfde7ad6c4aa6, 0xa3f7d01f77c79e7, 0xb7eb88336f6ea4e2, 0xdcf5f20bb8636880, 0xca1eb3d63ac863c, 0xdbd29172a686a96a, 0xe9c613854f994069, 0xc83141e8d070e238, 0x2f4bd936dec5af59, 0x3f3e82fbfb8c34e3, 0xdf9edba153642782, 0x64ffd59ed11038b1, 0x95b064a8689c903f, 0x1dfb04d45060708b] := by decide +kernel
theorem abc_0_6 : (rnd 6 (ofFlat [0xb8bf4f65f9169b27, 0xea27bcf57b85c834, 0x6c225d7d604c4ebb, 0x5ce98137eba69953, 0x1513adbe7b71d2cd, 0x1b4243588a86630f, 0x49651e06283451af, 0x3822c89fc802ce4c, 0xad095c1ac5c823e6, 0xa24ea521503cfb7a, 0x1e8c73e94b2a7313, 0xb3abfde7ad6c4aa6, 0xa3f7d01f77c79e7, 0xb7eb88336f6ea4e2, 0xdcf5f20bb8636880, 0xca1eb3d63ac863c, 0xdbd29172a686a96a, 0xe9c613854f994069, 0xc83141e8d070e238, 0x2f4bd936dec5af59, 0x3f3e82fbfb8c34e3, 0xdf9edba153642782, 0x64ffd59ed11038b1, 0x95b064a8689c903f, 0x1dfb04d45060708b])).flat = [0x1ad52d972e2b6a9, 0xb6bcec9bf64a703d, 0x9fce31686cc35e77, 0xb7415a1a277618e4, 0x403b5e2e1ed8c67e, 0x5341d2d5131d4c72, 0x95ae882a573a4183, 0xfe7bf89282d675f3, 0x4373dc27099338af, 0xc47c816c91cf635, 0x8eab6a1d707cd513, 0xf44b300a25428e6f, 0x6f2104b183ac8642, 0x9805636eadf00028, 0x584bd0a44fb337f6, 0xed55c52a4592beb, 0xc613ad83d308db1a, 0x2a58163a99d35e69, 0xf17693d562866ab9, 0x2cd4a600ad96e02c, 0x9e7d6a60b6eafaf3, 0x50227d8ea117309f, 0x110b8ded51f74d0f, 0xb1424cf9c3c50af0, 0xbdf05497c33177d3] := by decide +kernel
theorem abc_0_7 : (rnd 7 (ofFlat [0x1ad52d972e2b6a9, 0xb6bcec9bf64a703d, 0x9fce31686cc35e77, 0xb7415a1a277618e4, 0x403b5e2e1ed8c67e, 0x5341d2d5131d4c72, 0x95ae882a573a4183, 0xfe7bf89282d675f3, 0x4373dc27099338af, 0xc47c816c91cf635, 0x8eab6a1d707cd513, 0xf44b300a25428e6f, 0x6f2104b183ac8642, 0x9805636eadf00028, 0x584bd0a44fb337f6, 0xed55c52a4592beb, 0xc613ad83d308db1a, 0x2a58163a99d35e69, 0xf17693d562866ab9, 0x2cd4a600ad96e02c, 0x9e7d6a60b6eafaf3, 0x50227d8ea117309f, 0x110b8ded51f74d0f, 0xb1424cf9c3c50af0, 0xbdf05497c33177d3])).flat = [0xe4fdef2d684cc642, 0x9d647f607f8b13a7, 0x7eb8bb335fa1c983, 0xa9811160dbf15e95, 0x2daba9c1250543bb, 0x5ff481275c8e7001, 0x82ef9690b3fb8994, 0xcb42184bf3dbafcd, 0x7de15c665b133728, 0x4106fd241f1f5a95, 0x2932b23376846559, 0xc566160db5f858f9, 0x9fd1193e136d8add, 0x2b853389d5dc2799, 0x985ab50f090e7e5f, 0x99d77bef83ae3aac, 0xcb4e5d8d0936fba3, 0x2d82e3e716bc9f48, 0x5b684c24c0109ffb, 0xd5aea2723a9b3884, 0x63e9064ebe19aab9, 0x611c49f17262f69b, 0x9b4d0e374b99cab5, 0x8686021a3c424bfd, 0xd91a7be2e452997f] := by decide +kernel
theorem abc_0_8 : (rnd 8 (ofFlat [0xe4fdef2d684cc642, 0x9d647f607f8b13a7, 0x7eb8bb335fa1c983, 0xa9811160dbf15e95, 0x2daba9c1250543bb, 0x5ff481275c8e7001, 0x82ef9690b3fb8994, 0xcb42184bf3dbafcd, 0x7de15c665b133728, 0x4106fd241f1f5a95, 0x2932b23376846559, 0xc566160db5f858f9, 0x9fd1193e136d8add, 0x2b853389d5dc2799, 0x985ab50f090e7e5f, 0x99d77bef83ae3aac, 0xcb4e5d8d0936fba3, 0x2d82e3e716bc9f48, 0x5b684c24c0109ffb, 0xd5aea2723a9b3884, 0x63e9064ebe19aab9, 0x611c49f17262f69b, 0x9b4d0e374b99cab5, 0x8686021a3c424bfd, 0xd91a7be2e452997f])).flat = [0xfdca101c44343dbf, 0xd3f04f16198251c2, 0xc18b91d9c5cee899, 0x153e3375f02ef465, 0x801c819508d28a44, 0x3e05e4e6795ef2f1, 0xb358881462fd262c, 0xa4c26ad676116199, 0x534d3574266b2714, 0xb5ac898aa1f28628, 0x9c4ae3ac883484eb, 0xd0e5fb20e6b52ef9, 0xd5d0a2b40ed68d79, 0xb7d351641506bc8f, 0xc67d51b7b8dcf143, 0xa3dc3af5afdd54d2, 0x5e2295b06edde57e, 0xae0aa418f8a46d38, 0xb596b984b4871815, 0xcac8602539076a56, 0x12b57c746eab0ea3, 0xbd4e45bd50b965d1, 0x833129a70db1560f, 0x8447c56597092e5e, 0x6a4d9c9aa7cb5c24] := by decide +kernel
theorem abc_0_9 : (rnd 9 (ofFlat [0xfdca101c44343dbf, 0xd3f04f16198251c2, 0xc18b91d9c5cee899, 0x153e3375f02ef465, 0x801c819508d28a44, 0x3e05e4e6795ef2f1, 0xb358881462fd262c, 0xa4c26ad676116199, 0x534d3574266b2714, 0xb5ac898aa1f28628, 0x9c4ae3ac883484eb, 0xd0e5fb20e6b52ef9, 0xd5d0a2b40ed68d79, 0xb7d351641506bc8f, 0xc67d51b7b8dcf143, 0xa3dc3af5afdd54d2, 0x5e2295b06edde57e, 0xae0aa418f8a46d38, 0xb596b984b4871815, 0xcac8602539076a56, 0x12b57c746eab0ea3, 0xbd4e45bd50b965d1, 0x833129a70db1560f, 0x8447c56597092e5e, 0x6a4d9c9aa7cb5c24])).flat = [0xbe86d440499461b, 0x34565929332dfcee, 0x173d70b119429a3e, 0xfd3d1b56386094a6, 0xd13a39fe9a8aa595, 0xaa6154d91265bcf6, 0xab4896aeae4a9118, 0x4014f52202bfe0b1, 0xd127d4f87f8da91d, 0x9a14d076ecfaa79b, 0x1231efb90d3d7c14, 0xa11c75140142d8dc, 0x9a946622b73255b6, 0x69e96bb3bb142bd1, 0xc4b68b1dda791c71, 0xd8012f80c1ebe859, 0x9cacac8cb218a40b, 0x102bcc19d9068016, 0xdf9f46c883d936ac, 0xa987f4177ec16625, 0x84538a17a9ba640a, 0x302c6f55ab3b3b40, 0xa343aeefba4ccef8, 0x6459f49887d5fa5d, 0xd3bac4cad4a42124] := by decide +kernel
theorem abc_0_10 : (rnd 10 (ofFlat [0xbe86d440499461b, 0x34565929332dfcee, 0x173d70b119429a3e, 0xfd3d1b56386094a6, 0xd13a39fe9a8aa595, 0xaa6154d91265bcf6, 0xab4896aeae4a9118, 0x4014f52202bfe0b1, 0xd127d4f87f8da91d, 0x9a14d076ecfaa79b, 0x1231efb90d3d7c14, 0xa11c75140142d8dc, 0x9a946622b73255b6, 0x69e96bb3bb142bd1, 0xc4b68b1dda791c71, 0xd8012f80c1ebe859, 0x9cacac8cb218a40b, 0x102bcc19d9068016, 0xdf9f46c883d936ac, 0xa987f4177ec16625, 0x84538a17a9ba640a, 0x302c6f55ab3b3b40, 0xa343aeefba4ccef8, 0x6459f49887d5fa5d, 0xd3bac4cad4a42124])).flat = [0x211fc9bae97f51bd, 0x429db8c8e39642d, 0x724765e3aaad228c, 0x71e99d9db088032c, 0xc9f870dcedba989f, 0x1fb39d78cc2a23e4, 0x5cfeb22b344fbdc2, 0x849675024aabad6b, 0x4ba371c5bdbc0a18, 0xd9f95de1d885b627, 0xcfed30bdc0e6fc0, 0x992d10dd949efacb, 0x41da10f955acfcdc, 0x22017c630d8bc39c, 0x182abbbda64cc3c3, 0xb82a58529fc6fcca, 0x68bf40f723af5d61, 0x470123b72003e2c5, 0x44ee6ff71f226927, 0x37a0c2746f4d8828, 0xda3ccada334ad218, 0x1a205c79d7dcc8a4, 0x5e5dee56b53c5b62, 0x18ac8494076bbd1, 0x88366d859a13e135] := by decide +kernel
theorem abc_0_11 : (rnd 11 (ofFlat [0x211fc9bae97f51bd, 0x429db8c8e39642d, 0x724765e3aaad228c, 0x71e99d9db088032c, 0xc9f870dcedba989f, 0x1fb39d78cc2a23e4, 0x5cfeb22b344fbdc2, 0x849675024aabad6b, 0x4ba371c5bdbc0a18, 0xd9f95de1d885b627, 0xcfed30bdc0e6fc0, 0x992d10dd949efacb, 0x41da10f955acfcdc, 0x22017c630d8bc39c, 0x182abbbda64cc3c3, 0xb82a58529fc6fcca, 0x68bf40f723af5d61, 0x470123b72003e2c5, 0x44ee6ff71f226927, 0x37a0c2746f4d8828, 0xda3ccada334ad218, 0x1a205c79d7dcc8a4, 0x5e5dee56b53c5b62, 0x18ac8494076bbd1, 0x88366d859a13e135])).flat = [0xfa2c3164b2758196, 0x25b1709135c90273, 0x4bf4884789ff7c83, 0xbdd65db776d01862, 0x5db39f94e6775f67, 0x85cd6c87ab087022, 0x1d40ac0e0fbac124, 0x6cc59c8d7aa20a2b, 0x7a624c8858c8c6e2, 0xe0ce5c9d1efc3e63, 0x8104aa7f37cf94ba, 0x6d428e93f9ba6deb, 0x11c20a437dc654a2, 0x175b59a419fd6058, 0x8b50d44026f4642d, 0xd0bee533b892fb38, 0xf788a4bade4aff09, 0x9a39bf51c9d27e37, 0x4cabfaa79b4e641b, 0xa3c0a77b16e8bc78, 0x5ec59b57f32b6d3d, 0x9ce51d67562c39f4, 0x47db84dbc2537669, 0xbcface16c82d94bd, 0x7b2f0f0b00812b18] := by decide +kernel
theorem abc_0_12 : (rnd 12 (ofFlat [0xfa2c3164b2758196, 0x25b1709135c90273, 0x4bf4884789ff7c83, 0xbdd65db776d01862, 0x5db39f94e6775f67, 0x85cd6c87ab087022, 0x1d40ac0e0fbac124, 0x6cc59c8d7aa20a2b, 0x7a624c8858c8c6e2, 0xe0ce5c9d1efc3e63, 0x8104aa7f37cf94ba, 0x6d428e93f9ba6deb, 0x11c20a437dc654a2, 0x175b59a419fd6058, 0x8b50d44026f4642d, 0xd0bee533b892fb38, 0xf788a4bade4aff09, 0x9a39bf51c9d27e37, 0x4cabfaa79b4e641b, 0xa3c0a77b16e8bc78, 0x5ec59b57f32b6d3d, 0x9ce51d67562c39f4, 0x47db84dbc2537669, 0xbcface16c82d94bd, 0x7b2f0f0b00812b18])).flat = [0x4053c9bf6d3d6225, 0x44996fb39dfe560c, 0x2d04dbf3209e1ff0, 0x5bb2df5696ae86a0, 0xe1c4984221e3aab, 0xf5ba60485cb88364, 0x1c7a6edde87210f5, 0x97d407ea0428b3d8, 0xdb252b269c48960a, 0x874e347ae81c04c9, 0x2603721d8bed51a2, 0x9a23e31e416ba5e6, 0x242b84d9b888b88c, 0x43c1e7e879305962, 0x16d231aebfc992ef, 0xcb73a7f268e8a1a2, 0x42492b31ab64110f, 0xd1b5f85f35b12f3d, 0xd62f3490dd65f7cd, 0x7e8a669465dd5ad7, 0xad55a654830e220f, 0x97b7bf097e24ef6f, 0x7ae23ac50d99e554, 0xb1636217818a53c8, 0xfbc5236b986ea4b8] := by decide +kernel
theorem abc_0_13 : (rnd 13 (ofFlat [0x4053c9bf6d3d6225, 0x44996fb39dfe560c, 0x2d04dbf3209e1ff0, 0x5bb2df5696ae86a0, 0xe1c4984221e3aab, 0xf5ba60485cb88364, 0x1c7a6edde87210f5, 0x97d407ea0428b3d8, 0xdb252b269c48960a, 0x874e347ae81c04c9, 0x2603721d8bed51a2, 0x9a23e31e416ba5e6, 0x242b84d9b888b88c, 0x43c1e7e879305962, 0x16d231aebfc992ef, 0xcb73a7f268e8a1a2, 0x42492b31ab64110f, 0xd1b5f85f35b12f3d, 0xd62f3490dd65f7cd, 0x7e8a669465dd5ad7, 0xad55a654830e220f, 0x97b7bf097e24ef6f, 0x7ae23ac50d99e554, 0xb1636217818a53c8, 0xfbc5236b986ea4b8])).flat = [0x16f16f5025ce3a90, 0x9ee280e6818cc98, 0xe7e146db48a5543a, 0xf2ed18f0bc9bc19f, 0xbdb9153c13fa6815, 0xb22437dc93f94445, 0x3dad011961bc9ed4, 0x9180b95a60996dd6, 0xc1fbfc9319091759, 0x496f58d61e4d2cee, 0x7c180ad50839117c, 0x37baf487d74d4e12, 0xdfb38c44d6898655, 0xb98711fdf8601711, 0xe0dc5cbdf4a299b, 0x9d60d5ecfa2875d2, 0x7aeef79cc4d8502c, 0x99968daa22bde032, 0x9e5449363ce4569f, 0xa13f73eb12a56e09, 0x6a83ddcdcfb2b6cc, 0x887eab821191df30, 0xf604ddacb6f81231, 0xa591f5dfe147a846, 0xa5e545d18e19c7de] := by decide +kernel
theorem abc_0_14 : (rnd 14 (ofFlat [0x16f16f5025ce3a90, 0x9ee280e6818cc98, 0xe7e146db48a5543a, 0xf2ed18f0bc9bc19f, 0xbdb9153c13fa6815, 0xb22437dc93f94445, 0x3dad011961bc9ed4, 0x9180b95a60996dd6, 0xc1fbfc9319091759, 0x496f58d61e4d2cee, 0x7c180ad50839117c, 0x37baf487d74d4e12, 0xdfb38c44d6898655, 0xb98711fdf8601711, 0xe0dc5cbdf4a299b, 0x9d60d5ecfa2875d2, 0x7aeef79cc4d8502c, 0x99968daa22bde032, 0x9e5449363ce4569f, 0xa13f73eb12a56e09, 0x6a83ddcdcfb2b6cc, 0x887eab821191df30, 0xf604ddacb6f81231, 0xa591f5dfe147a846, 0xa5e545d18e19c7de])).flat = [0xdb6bc054f8ff542b, 0xab0697078caf3fe, 0x7d5cd66bb4d23ef5, 0xd85b42f55dd4cae2, 0xee85eff8696fb1e7, 0x56fbacd6ad8f7c71, 0xdda0d27cbcea277e, 0x46559e432b7c96db, 0x9cfbdb2c154cf345, 0xcdb8aad9b7df5de7, 0x54944ac565de7e29, 0xb7e8c6dab2e84302, 0x903c35ef8bf6189d, 0x630e4ca5f1084ffe, 0x340ded3d1d9d905, 0x84019077aa12cd05, 0x23da77a1ed782897, 0x433fa404cde67214, 0x8b45948e06360e2a, 0xb805b5a26f7f14d4, 0x440a34ce9061ecdd, 0x8675dc52d7366c2b, 0xb767e500999a062c, 0x127c50de4b99b57, 0x2d3711e01c81b2e8] := by decide +kernel
theorem abc_0_15 : (rnd 15 (ofFlat [0xdb6bc054f8ff542b, 0xab0697078caf3fe, 0x7d5cd66bb4d23ef5, 0xd85b42f55dd4cae2, 0xee85eff8696fb1e7, 0x56fbacd6ad8f7c71, 0xdda0d27cbcea277e, 0x46559e432b7c96db, 0x9cfbdb2c154cf345, 0xcdb8aad9b7df5de7, 0x54944ac565de7e29, 0xb7e8c6dab2e84302, 0x903c35ef8bf6189d, 0x630e4ca5f1084ffe, 0x340ded3d1d9d905, 0x84019077aa12cd05, 0x23da77a1ed782897, 0x433fa404cde67214, 0x8b45948e06360e2a, 0xb805b5a26f7f14d4, 0x440a34ce9061ecdd, 0x8675dc52d7366c2b, 0xb767e500999a062c, 0x127c50de4b99b57, 0x2d3711e01c81b2e8])).flat = [0x74e813fe982441e4, 0x680c902f5a961737, 0x78674077b2f18bab, 0x2534e49b8a16979c, 0x2d2cf0886d36aeb9, 0x2c4dbad9acf8d95c, 0x3dee87a4e8cc0226, 0x3e96eea60e461969, 0x908d80017301ace9, 0xf497227f7d6144c9, 0x52cb255be8310a8f, 0xf4f4c615a370ef17, 0x451519428c8b396, 0x943e81315a80b622, 0xb8c195cb77250e9a, 0xad9c5d4dc9cebf77, 0x885d805890b2f07c, 0xf6e6cce1febaec41, 0xede59ac7b233effe, 0xaf745694be6cf2f9, 0x98ceb9ee1bb302a7, 0xdf44847dc5d63118, 0x386aa7467d27a80f, 0x29948133c3179a3f, 0xc09098a932ce6b50] := by decide +kernel
theorem abc_0_16 : (rnd 16 (ofFlat [0x74e813fe982441e4, 0x680c902f5a961737, 0x78674077b2f18bab, 0x2534e49b8a16979c, 0x2d2cf0886d36aeb9, 0x2c4dbad9acf8d95c, 0x3dee87a4e8cc0226, 0x3e96eea60e461969, 0x908d80017301ace9, 0xf497227f7d6144c9, 0x52cb255be8310a8f, 0xf4f4c615a370ef17, 0x451519428c8b396, 0x943e81315a80b622, 0xb8c195cb77250e9a, 0xad9c5d4dc9cebf77, 0x885d805890b2f07c, 0xf6e6cce1febaec41, 0xede59ac7b233effe, 0xaf745694be6cf2f9, 0x98ceb9ee1bb302a7, 0xdf44847dc5d63118, 0x386aa7467d27a80f, 0x29948133c3179a3f, 0xc09098a932ce6b50])).flat = [0x17e9b9ccf8ecc826, 0xa7f478ab860e419, 0x22def89ce8c4860b, 0x96e74ea68427d6a3, 0xa5c47f777701a25e, 0xa6b550c049aa5e6a, 0x994eebad391687a0, 0x8250396c1869800d, 0x66b195e7106a641b, 0x59fb3ee663956dd8, 0xbed7a628d38ff3c5, 0x8779999b58a168b0, 0xa53106df7c8a1605, 0x6aeb75712c55a5f4, 0x2f45ab6f2cf5e13e, 0x49053a4f1d9703f9, 0xcbafa86defcdea6c, 0xc7143a0ed02b074b, 0x3ef7a7819eb36778, 0x11f080a7324bdd01, 0x50357b4c5372043d, 0xbea9cc8d687bc198, 0xbbd2f41027dc1776, 0x1409a8da7e0a7505, 0x4a079198b202f2ab] := by decide +kernel
theorem abc_0_17 : (rnd 17 (ofFlat [0x17e9b9ccf8ecc826, 0xa7f478ab860e419, 0x22def89ce8c4860b, 0x96e74ea68427d6a3, 0xa5c47f777701a25e, 0xa6b550c049aa5e6a, 0x994eebad391687a0, 0x8250396c1869800d, 0x66b195e7106a641b, 0x59fb3ee663956dd8, 0xbed7a628d38ff3c5, 0x8779999b58a168b0, 0xa53106df7c8a1605, 0x6aeb75712c55a5f4, 0x2f45ab6f2cf5e13e, 0x49053a4f1d9703f9, 0xcbafa86defcdea6c, 0xc7143a0ed02b074b, 0x3ef7a7819eb36778, 0x11f080a7324bdd01, 0x50357b4c5372043d, 0xbea9cc8d687bc198, 0xbbd2f41027dc1776, 0x1409a8da7e0a7505, 0x4a079198b202f2ab])).flat = [0x9c5c28927c86a8da, 0x884b3598533edc0b, 0xc0e995b5802a89d9, 0x72a2266d9c6c5aa9, 0x292e7bfecfb833ed, 0xcafbb54fb7e9ca06, 0x2d3e33ba83bc4a68, 0xa077a28db237785a, 0x79b3a4f450651e88, 0x23477e73190be355, 0xdc69b5dccbdc1f46, 0xa77ab98df2b20c68, 0x8e8ff70edf455307, 0x911523ac7695aecd, 0xaad756400376c830, 0x91a9d11f9ded8a1a, 0xc0c1edaec88079f6, 0xc82b1a5edc3f0d9d, 0x15419f8d9768e76e, 0x5a7c43762a759bf3, 0x4ed5f88d91fbeb21, 0xf88149b3aa49bd13, 0x7110bf9ff13a793, 0xfac29ac328e70d32, 0x6b814212e5da9ab7] := by decide +kernel
theorem abc_0_18 : (rnd 18 (ofFlat [0x9c5c28927c86a8da, 0x884b3598533edc0b, 0xc0e995b5802a89d9, 0x72a2266d9c6c5aa9, 0x292e7bfecfb833ed, 0xcafbb54fb7e9ca06, 0x2d3e33ba83bc4a68, 0xa077a28db237785a, 0x79b3a4f450651e88, 0x23477e73190be355, 0xdc69b5dccbdc1f46, 0xa77ab98df2b20c68, 0x8e8ff70edf455307, 0x911523ac7695aecd, 0xaad756400376c830, 0x91a9d11f9ded8a1a, 0xc0c1edaec88079f6, 0xc82b1a5edc3f0d9d, 0x15419f8d9768e76e, 0x5a7c43762a759bf3, 0x4ed5f88d91fbeb21, 0xf88149b3aa49bd13, 0x7110bf9ff13a793, 0xfac29ac328e70d32, 0x6b814212e5da9ab7])).flat = [0xb981450da33cd840, 0x3df462ac3b90282e, 0x40760c9e1d7374ec, 0x294db80488acdd1f, 0xbd2f6cc0f0d1cc6d, 0xab6a4699a710f59a, 0xb0e82f49a3bddb45, 0xdde48199b43dceb3, 0xeaacbeec88e3ab31, 0xaa4a3a33bed69546, 0xad5d275003c3a3df, 0x4d18726a3a8bf41c, 0xbf186ba2ad61dc8c, 0x95b92d66ae8302d9, 0x35a079a304cef822, 0x26f71cd9f3bc1825, 0x4797eb12f3658017, 0x7d1cd105fcd535c0, 0xba8b4b60d625a474, 0xe0f98ecc00934734, 0xd62a91ae7295f998, 0xa5b91ba8fad44292, 0x827b493e1a6acc1c, 0xaa344558fbc49108, 0xb406a24ce152c099] := by decide +kernel
theorem abc_0_19 : (rnd 19 (ofFlat [0xb981450da33cd840, 0x3df462ac3b90282e, 0x40760c9e1d7374ec, 0x294db80488acdd1f, 0xbd2f6cc0f0d1cc6d, 0xab6a4699a710f59a, 0xb0e82f49a3bddb45, 0xdde48199b43dceb3, 0xeaacbeec88e3ab31, 0xaa4a3a33bed69546, 0xad5d275003c3a3df, 0x4d18726a3a8bf41c, 0xbf186ba2ad61dc8c, 0x95b92d66ae8302d9, 0x35a079a304cef822, 0x26f71cd9f3bc1825, 0x4797eb12f3658017, 0x7d1cd105fcd535c0, 0xba8b4b60d625a474, 0xe0f98ecc00934734, 0xd62a91ae7295f998, 0xa5b91ba8fad44292, 0x827b493e1a6acc1c, 0xaa344558fbc49108, 0xb406a24ce152c099])).flat = [0x4fbf9834be58f50a, 0xa382306d97bc5c43, 0xd0d04bd7f6f74908, 0x4124d4acce720646, 0x95277fbd563c9108, 0x825610fac5ad1c4b, 0xcc010750bb04a5a4, 0xfc143ed7f72415b3, 0xe8761635d6fa9a10, 0x4992feacecb6d2fb, 0xa0be6be5d1a6b333, 0xc9c968485eb39acc, 0x823225e07c6a50ac, 0x4b705d8a9255ad3b, 0x30572ecb5f6395d8, 0x8f7992d091aab412, 0xa951a5a1995db33d, 0xe18a94d5f4dbeae5, 0xaaceaa4ca9b2d1ec, 0x6f9fa015671a4666, 0x3f76c625ac0e04c3, 0xbb2518ead89e75a4, 0x77b258640ccbb185, 0xcae48083901441f, 0xc4282458a55c7de9] := by decide +kernel
theorem abc_0_20 : (rnd 20 (ofFlat [0x4fbf9834be58f50a, 0xa382306d97bc5c43, 0xd0d04bd7f6f74908, 0x4124d4acce720646, 0x95277fbd563c9108, 0x825610fac5ad1c4b, 0xcc010750bb04a5a4, 0xfc143ed7f72415b3, 0xe8761635d6fa9a10, 0x4992feacecb6d2fb, 0xa0be6be5d1a6b333, 0xc9c968485eb39acc, 0x823225e07c6a50ac, 0x4b705d8a9255ad3b, 0x30572ecb5f6395d8, 0x8f7992d091aab412, 0xa951a5a1995db33d, 0xe18a94d5f4dbeae5, 0xaaceaa4ca9b2d1ec, 0x6f9fa015671a4666, 0x3f76c625ac0e04c3, 0xbb2518ead89e75a4, 0x77b258640ccbb185, 0xcae48083901441f, 0xc4282458a55c7de9])).flat = [0x176762f7f0fd2cb, 0x1c12fe07f282c67e, 0x346191c000e78969, 0x67f3b430601c405, 0xd3a42437438c8e86, 0x8d868a313b4887d, 0xc62793f833307635, 0x1db528788ce0e494, 0xee640139b5f80e3, 0xad449b46a170bda3, 0xdebf382217b21011, 0x2f8b28ec9e7bd9e0, 0x69b846c209f26945, 0x7436b1728d058f95, 0x863b311e80440e18, 0x9999b806834ea7ee, 0x1d19804dd7ea1b10, 0x1304d5082fb814d4, 0xdd27dce38b39eeba, 0x6098ca2b2352a7d8, 0xdb4a9450ae68b9d5, 0x1faaae6e05ee6109, 0x26f058fa421a90b1, 0x883d27c04eea5fe2, 0x5b27577311eac1ae] := by decide +kernel
theorem abc_0_21 : (rnd 21 (ofFlat [0x176762f7f0fd2cb, 0x1c12fe07f282c67e, 0x346191c000e78969, 0x67f3b430601c405, 0xd3a42437438c8e86, 0x8d868a313b4887d, 0xc62793f833307635, 0x1db528788ce0e494, 0xee640139b5f80e3, 0xad449b46a170bda3, 0xdebf382217b21011, 0x2f8b28ec9e7bd9e0, 0x69b846c209f26945, 0x7436b1728d058f95, 0x863b311e80440e18, 0x9999b806834ea7ee, 0x1d19804dd7ea1b10, 0x1304d5082fb814d4, 0xdd27dce38b39eeba, 0x6098ca2b2352a7d8, 0xdb4a9450ae68b9d5, 0x1faaae6e05ee6109, 0x26f058fa421a90b1, 0x883d27c04eea5fe2, 0x5b27577311eac1ae])).flat = [0xd04cb71b9cabae45, 0x2b95a1c53c15ddb, 0xe0359c6afad5997d, 0x20b04cab2e156651, 0x9ed1928b47ef075f, 0x50e70ea4ff13f65e, 0xbabd8e3be7ae7d5b, 0x2e1fc9a2e14b053d, 0xd63c979beb69a3d, 0x1b4a6a7b2c90efeb, 0xccc286cdd80b2771, 0xf4ec08e28f30de0e, 0x6d9ba0f2ac85dd5a, 0x282efa4e6c74ec42, 0x7413c7e910af00df, 0x54c2c2ad029da806, 0x8aeec5a24be29de5, 0xe77e7d22e835bd0d, 0xff9d163e79105bb7, 0x2a5668617e64ea38, 0xed01a27ccc8ce807, 0x746fdb23b019845a, 0xcd2e8354040aa7d0, 0xc9b721490efcaa93, 0x959f5f1c3fd9d4e5] := by decide +kernel
theorem abc_0_22 : (rnd 22 (ofFlat [0xd04cb71b9cabae45, 0x2b95a1c53c15ddb, 0xe0359c6afad5997d, 0x20b04cab2e156651, 0x9ed1928b47ef075f, 0x50e70ea4ff13f65e, 0xbabd8e3be7ae7d5b, 0x2e1fc9a2e14b053d, 0xd63c979beb69a3d, 0x1b4a6a7b2c90efeb, 0xccc286cdd80b2771, 0xf4ec08e28f30de0e, 0x6d9ba0f2ac85dd5a, 0x282efa4e6c74ec42, 0x7413c7e910af00df, 0x54c2c2ad029da806, 0x8aeec5a24be29de5, 0xe77e7d22e835bd0d, 0xff9d163e79105bb7, 0x2a5668617e64ea38, 0xed01a27ccc8ce807, 0x746fdb23b019845a, 0xcd2e8354040aa7d0, 0xc9b721490efcaa93, 0x959f5f1c3fd9d4e5])).flat = [0x4a5e33f40404bf03, 0x4f53f5f85c745645, 0xbfe7ffcaf7d90bd4, 0x6798f5e3869cfb51, 0x2f2d93e0cabe1303, 0xd29eb80fbb4cf454, 0xdd44e267c3ee3c99, 0x939d430b3331fd79, 0x52a2ac97d0973421, 0xae7d7ce8fa7b38d7, 0xc923347f302533be, 0xb73e4447ef0d620e, 0xbec70494127081cf, 0x943dec523b6145c1, 0x8c4156a305431a4c, 0x213d81c45a311b63, 0xc52672f7a35c3580, 0x3983253be87aaa4a, 0x96789fb75e06897d, 0x7a9ebc09686927c8, 0x2d3f32e84b11ad1e, 0x582c26c1de4c25f5, 0x6051c957075810b0, 0x76011562a09d0c77, 0xa1e4860fb04325a] := by decide +kernel
theorem abc_0_23 : (rnd 23 (ofFlat [0x4a5e33f40404bf03, 0x4f53f5f85c745645, 0xbfe7ffcaf7d90bd4, 0x6798f5e3869cfb51, 0x2f2d93e0cabe1303, 0xd29eb80fbb4cf454, 0xdd44e267c3ee3c99, 0x939d430b3331fd79, 0x52a2ac97d0973421, 0xae7d7ce8fa7b38d7, 0xc923347f302533be, 0xb73e4447ef0d620e, 0xbec70494127081cf, 0x943dec523b6145c1, 0x8c4156a305431a4c, 0x213d81c45a311b63, 0xc52672f7a35c3580, 0x3983253be87aaa4a, 0x96789fb75e06897d, 0x7a9ebc09686927c8, 0x2d3f32e84b11ad1e, 0x582c26c1de4c25f5, 0x6051c957075810b0, 0x76011562a09d0c77, 0xa1e4860fb04325a])).flat = [0x4fa945ea7a65034e, 0x67d6c826a87bd4c7, 0x36a0643ae3e6d1c0, 0x456c2da18ff544ec, 0xbba2151eac382c81, 0xfc2da5e99f7d606f, 0x2ca151d9b481c415, 0x4f2e524ab2335fe, 0x582aa0072a9df8cd, 0x2bd18639e5a7aefc, 0x84c8b945e8d84784, 0x728e60c1558bb1aa, 0x1ddf4b907b006066, 0x2a9a8bc201255fc0, 0x93dd9b50f44a2b8b, 0x162ec00c86ec814a, 0x4287101af69ea11e, 0xd6c478d8dcceddf1, 0x2eb1c10bd6e58d8c, 0x93d65dcbaec7d199, 0x610a29fa9d470304, 0x7ea977f114d5c8d2, 0x50866f9f76e840d5, 0x891c6dc9e7a9b7ce, 0xdaff5e6dcd41bd9a] := by decide +kernel

theorem abc_perm0 {A : St} (h : A.flat = [0x1636261, 0x0, 0x0, 0x0, 0x0, 0x0, 0x0, 0x0, 0x0, 0x0, 0x0, 0x0, 0x0, 0x0, 0x0, 0x0, 0x8000000000000000, 0x0, 0x0, 0x0, 0x0, 0x0, 0x0, 0x0, 0x0]) : EqSt (keccakF A) (ofFlat [0x4fa945ea7a65034e, 0x67d6c826a87bd4c7, 0x36a0643ae3e6d1c0, 0x456c2da18ff544ec, 0xbba2151eac382c81, 0xfc2da5e99f7d606f, 0x2ca151d9b481c415, 0x4f2e524ab2335fe, 0x582aa0072a9df8cd, 0x2bd18639e5a7aefc, 0x84c8b945e8d84784, 0x728e60c1558bb1aa, 0x1ddf4b907b006066, 0x2a9a8bc201255fc0, 0x93dd9b50f44a2b8b, 0x162ec00c86ec814a, 0x4287101af69ea11e, 0xd6c478d8dcceddf1, 0x2eb1c10bd6e58d8c, 0x93d65dcbaec7d199, 0x610a29fa9d470304, 0x7ea977f114d5c8d2, 0x50866f9f76e840d5, 0x891c6dc9e7a9b7ce, 0xdaff5e6dcd41bd9a]) :=
  ((((((((((((((((((((((((eqSt_of_flat h).step abc_0_0).step abc_0_1).step abc_0_2).step abc_0_3).step abc_0_4).step abc_0_5).step abc_0_6).step abc_0_7).step abc_0_8).step abc_0_9).step abc_0_10).step abc_0_11).step abc_0_12).step abc_0_13).step abc_0_14).step abc_0_15).step abc_0_16).step abc_0_17).step abc_0_18).step abc_0_19).step abc_0_20).step abc_0_21).step abc_0_22).step abc_0_23

/-- "abc". -/
theorem keccak256_abc : keccak256 [0x61, 0x62, 0x63] = [0x4e, 0x03, 0x65, 0x7a, 0xea, 0x45, 0xa9, 0x4f, 0xc7, 0xd4, 0x7b, 0xa8, 0x26, 0xc8, 0xd6, 0x67, 0xc0, 0xd1, 0xe6, 0xe3, 0x3a, 0x64, 0xa0, 0x36, 0xec, 0x44, 0xf5, 0x8f, 0xa1, 0x2d, 0x6c, 0x45] := by
  refine digest (l := [0x4fa945ea7a65034e, 0x67d6c826a87bd4c7, 0x36a0643ae3e6d1c0, 0x456c2da18ff544ec, 0xbba2151eac382c81, 0xfc2da5e99f7d606f, 0x2ca151d9b481c415, 0x4f2e524ab2335fe, 0x582aa0072a9df8cd, 0x2bd18639e5a7aefc, 0x84c8b945e8d84784, 0x728e60c1558bb1aa, 0x1ddf4b907b006066, 0x2a9a8bc201255fc0, 0x93dd9b50f44a2b8b, 0x162ec00c86ec814a, 0x4287101af69ea11e, 0xd6c478d8dcceddf1, 0x2eb1c10bd6e58d8c, 0x93d65dcbaec7d199, 0x610a29fa9d470304, 0x7ea977f114d5c8d2, 0x50866f9f76e840d5, 0x891c6dc9e7a9b7ce, 0xdaff5e6dcd41bd9a]) (n := 1) ?_ (abc_perm0 (A := fun x y => if x + 5 * y < 17 then (fun _ _ => 0 : St) x y ^^^ leLane (pad [0x61, 0x62, 0x63]) (17 * 0 + (x + 5 * y)) else (fun _ _ => 0 : St) x y) ?_) ?_ <;> decide +kernel

/-! ## The 200 bytes 0, 1, …, 199: two blocks. -/

theorem two_0_0 : (rnd 0 (ofFlat [0x706050403020100, 0xf0e0d0c0b0a0908, 0x1716151413121110, 0x1f1e1d1c1b1a1918, 0x2726252423222120, 0x2f2e2d2c2b2a2928, 0x3736353433323130, 0x3f3e3d3c3b3a3938, 0x4746454443424140, 0x4f4e4d4c4b4a4948, 0x5756555453525150, 0x5f5e5d5c5b5a5958, 0x6766656463626160, 0x6f6e6d6c6b6a6968, 0x7776757473727170, 0x7f7e7d7c7b7a7978, 0x8786858483828180, 0x0, 0x0, 0x0, 0x0, 0x0, 0x0, 0x0, 0x0])).flat = [0xccdcdc9c8cdcfcfd, 0xa2baa21a82fac21a, 0x365f074fd73f66ae, 0xbe1f7ede3e9ffe5e, 0xaf6f0eceae6e0fcf, 0xce2e0e6e4eae8eee, 0x5a584a484240525, 0x5ddddc1c5c5c5c1c, 0x4444450545c5c404, 0x105010d091d19151, 0x33252f293b2d2721, 0x6abcf93c7dafee2f, 0x716e6368617a737c, 0x363530332a293437, 0x3fffab6927e5b373, 0x808080a0a0a0a080, 0x5b5f5f5f5f5f5b5f, 0x332e23020f121b3e, 0xc5c4c3c2c1c0c7c6, 0x676e6d686b626164, 0x64687c7054584c4, 0x5f58595a5b5c5d5e, 0x1810080038302820, 0x4747c6c66666e7e7, 0x626b727a4248505b] := by decide +kernel
theorem two_0_1 : (rnd 1 (ofFlat [0xccdcdc9c8cdcfcfd, 0xa2baa21a82fac21a, 0x365f074fd73f66ae, 0xbe1f7ede3e9ffe5e, 0xaf6f0eceae6e0fcf, 0xce2e0e6e4eae8eee, 0x5a584a484240525, 0x5ddddc1c5c5c5c1c, 0x4444450545c5c404, 0x105010d091d19151, 0x33252f293b2d2721, 0x6abcf93c7dafee2f, 0x716e6368617a737c, 0x363530332a293437, 0x3fffab6927e5b373, 0x808080a0a0a0a080, 0x5b5f5f5f5f5f5b5f, 0x332e23020f121b3e, 0xc5c4c3c2c1c0c7c6, 0x676e6d686b626164, 0x64687c7054584c4, 0x5f58595a5b5c5d5e, 0x1810080038302820, 0x4747c6c66666e7e7, 0x626b727a4248505b])).flat = [0xca5045dfc3713f1f, 0xe377f4107c0f60e, 0x7057a922e439b794, 0x1e2f87f5963fdda4, 0x6274bb7a73b8908b, 0xd1145bc0988c4d93, 0xe6fde6ed8f3318dc, 0x2d457a1520c626c4, 0xabe133ad587277b0, 0xdc47d8e925e0b19, 0x6d3519e6cc7c9535, 0x485208b3e2aee142, 0xdb0ae7ad9c48dbc7, 0x249a288c038549d7, 0x7a712b5639d72368, 0xf71d701b71f7890a, 0x4084c17dba716158, 0xa0c6de6d8c2beafc, 0x36ac2eff747fb1a2, 0x92dd9fe5bfd9cdf4, 0xda8891cad1f9b5fd, 0xf17f0ce17a6e8f09, 0x240dfd5d7ee81e94, 0xb9cc83ac180b1797, 0xf851857dc476c20] := by decide +kernel
theorem two_0_2 : (rnd 2 (ofFlat [0xca5045dfc3713f1f, 0xe377f4107c0f60e, 0x7057a922e439b794, 0x1e2f87f5963fdda4, 0x6274bb7a73b8908b, 0xd1145bc0988c4d93, 0xe6fde6ed8f3318dc, 0x2d457a1520c626c4, 0xabe133ad587277b0, 0xdc47d8e925e0b19, 0x6d3519e6cc7c9535, 0x485208b3e2aee142, 0xdb0ae7ad9c48dbc7, 0x249a288c038549d7, 0x7a712b5639d72368, 0xf71d701b71f7890a, 0x4084c17dba716158, 0xa0c6de6d8c2beafc, 0x36ac2eff747fb1a2, 0x92dd9fe5bfd9cdf4, 0xda8891cad1f9b5fd, 0xf17f0ce17a6e8f09, 0x240dfd5d7ee81e94, 0xb9cc83ac180b1797, 0xf851857dc476c20])).flat = [0x640682f8205b6413, 0x71f6e38c52fdaed1, 0x84ef53a809130ba9, 0xee9ab8e7a80ded9c, 0x22804dbaf572a3da, 0xdef34510785cd801, 0xc53ccf8f463a40b8, 0x3a568f8b2848385b, 0x3c6c06d88104bb62, 0x20245295b5d84d0f, 0xacc775f0492064ea, 0x33d346036f033269, 0x4a996866f2fb692, 0x80e936413a36be1b, 0x1864f94f8b56d95d, 0x6ceed31f0f5b0a3d, 0xca99f37f74d88bd1, 0x460d3747069ae941, 0xb8b06097c8708cc2, 0x27ab0da09765a4d9, 0x657724aa4769b7ec, 0x89db4cea1246b579, 0xbe381329a64be639, 0xf9a76d3106064835, 0x34ff16207422aef7] := by decide +kernel
theorem two_0_3 : (rnd 3 (ofFlat [0x640682f8205b6413, 0x71f6e38c52fdaed1, 0x84ef53a809130ba9, 0xee9ab8e7a80ded9c, 0x22804dbaf572a3da, 0xdef34510785cd801, 0xc53ccf8f463a40b8, 0x3a568f8b2848385b, 0x3c6c06d88104bb62, 0x20245295b5d84d0f, 0xacc775f0492064ea, 0x33d346036f033269, 0x4a996866f2fb692, 0x80e936413a36be1b, 0x1864f94f8b56d95d, 0x6ceed31f0f5b0a3d, 0xca99f37f74d88bd1, 0x460d3747069ae941, 0xb8b06097c8708cc2, 0x27ab0da09765a4d9, 0x657724aa4769b7ec, 0x89db4cea1246b579, 0xbe381329a64be639, 0xf9a76d3106064835, 0x34ff16207422aef7])).flat = [0x5d453620b8511ea5, 0xc09415a575e37dbe, 0x7c40f5a75a65d667, 0x128ba44d928d2f5a, 0x4432871d9707862a, 0xef7df18cc2fd4296, 0x5125a997b0f8d9b5, 0x4fa748527964a16f, 0x9f28aa6306a1be58, 0xab8e53939430eeb7, 0x44257771b2c4f591, 0x67144b83e060a5ff, 0x9d8b9f9ba78ecb16, 0xe12d80988742b78b, 0xca915d1f7c4f9137, 0x8e886aa4d07a3019, 0x91a31f65f5e32da5, 0xca70ccfd6714c738, 0x70e1d0ade9a0f023, 0x408aaeb917b8d81f, 0x59206df13fd6681b, 0xba56a1086b9f63ad, 0x5a95cc9a5d1bf772, 0xbae5b5fab89f4673, 0x4afdc34a986a1224] := by decide +kernel
theorem two_0_4 : (rnd 4 (ofFlat [0x5d453620b8511ea5, 0xc09415a575e37dbe, 0x7c40f5a75a65d667, 0x128ba44d928d2f5a, 0x4432871d9707862a, 0xef7df18cc2fd4296, 0x5125a997b0f8d9b5, 0x4fa748527964a16f, 0x9f28aa6306a1be58, 0xab8e53939430eeb7, 0x44257771b2c4f591, 0x67144b83e060a5ff, 0x9d8b9f9ba78ecb16, 0xe12d80988742b78b, 0xca915d1f7c4f9137, 0x8e886aa4d07a3019, 0x91a31f65f5e32da5, 0xca70ccfd6714c738, 0x70e1d0ade9a0f023, 0x408aaeb917b8d81f, 0x59206df13fd6681b, 0xba56a1086b9f63ad, 0x5a95cc9a5d1bf772, 0xbae5b5fab89f4673, 0x4afdc34a986a1224])).flat = [0xcc9f49dd6ef91206, 0xdb1fd6592f02dd85, 0x44e2e902e0414c81, 0x8427ce104c328baf, 0x2ee756c996f27e5, 0x94059d12e6297dea, 0x262c2629ce79f6dd, 0xafb20701a342edcd, 0xdc102da2deb7d12c, 0xdb7208d99c937132, 0x3967e0d4154d0bad, 0xbabfd313b09a4c16, 0xa9318978ea46139c, 0x7b6f402e2eab8ea0, 0xa83af6cab1fdf37a, 0xeeb6ffa5880d0095, 0x648f63f7e8f04464, 0xca6a33edb7779e4b, 0xc9758af8ddb33d08, 0x4d2d91d16972ecd, 0x73810ff9f1302b1a, 0xa3772a0013beb22f, 0xc9345f5fb92cf72a, 0x9d38f294fc2abaa5, 0x1fbbca4cc3e6ba37] := by decide +kernel
theorem two_0_5 : (rnd 5 (ofFlat [0xcc9f49dd6ef91206, 0xdb1fd6592f02dd85, 0x44e2e902e0414c81, 0x8427ce104c328baf, 0x2ee756c996f27e5, 0x94059d12e6297dea, 0x262c2629ce79f6dd, 0xafb20701a342edcd, 0xdc102da2deb7d12c, 0xdb7208d99c937132, 0x3967e0d4154d0bad, 0xbabfd313b09a4c16, 0xa9318978ea46139c, 0x7b6f402e2eab8ea0, 0xa83af6cab1fdf37a, 0xeeb6ffa5880d0095, 0x648f63f7e8f04464, 0xca6a33edb7779e4b, 0xc9758af8ddb33d08, 0x4d2d91d16972ecd, 0x73810ff9f1302b1a, 0xa3772a0013beb22f, 0xc9345f5fb92cf72a, 0x9d38f294fc2abaa5, 0x1fbbca4cc3e6ba37])).flat = [0x9fb02ee8aa7628cb, 0x447414090f14466c, 0xfb64ca7f2fa06f94, 0x2d0709aa80bdbba6, 0xa60bf4c5d880f24a, 0x529dabbb0808ffd2, 0x9ff4870da6117760, 0xda611e990a0957a8, 0xb589806d76042f15, 0xdc8d74059708b803, 0x4fd6297854374094, 0x7b7edd0ca0d6b538, 0x7fe7be53fec7bee6, 0x128e69416ac4d6c8, 0x3bdb807841d8d3b9, 0x926dd35fa8b19b30, 0xf32ae87ca2041157, 0x240294e81f426f11, 0xf328544de04b732a, 0x9a0bb0e94395d44e, 0x8eb4e98d986244e4, 0x59845b0339f8a1bc, 0xb617d0c199daf0f5, 0x4c879b043b0551d8, 0x660ff750e7108a1f] := by decide +kernel
theorem two_0_6 : (rnd 6 (ofFlat [0x9fb02ee8aa7628cb, 0x447414090f14466c, 0xfb64ca7f2fa06f94, 0x2d0709aa80bdbba6, 0xa60bf4c5d880f24a, 0x529dabbb0808ffd2, 0x9ff4870da6117760, 0xda611e990a0957a8, 0xb589806d76042f15, 0xdc8d74059708b803, 0x4fd6297854374094, 0x7b7edd0ca0d6b538, 0x7fe7be53fec7bee6, 0x128e69416ac4d6c8, 0x3bdb807841d8d3b9, 0x926dd35fa8b19b30, 0xf32ae87ca2041157, 0x240294e81f426f11, 0xf328544de04b732a, 0x9a0bb0e94395d44e, 0x8eb4e98d986244e4, 0x59845b0339f8a1bc, 0xb617d0c199daf0f5, 0x4c879b043b0551d8, 0x660ff750e7108a1f])).flat = [0xb4418372ecdc1455, 0xf8d04b8b26c4e51c, 0x175b51f61ce48555, 0x985d92de8a9c29ba, 0x3dcf43c45e8912db, 0x48ee26dfedd60a9b, 0x2f9f8afc838dddd7, 0x23f5a4f7c567345e, 0xd627e046d73b1fe, 0x39f2fe6512bb34c3, 0xa3719d108f857e01, 0x9addd90d000cf96e, 0xacc938a742811eb3, 0x67c37199d6241413, 0x9025ba2bbc41c5f, 0x48de1b3384531f15, 0x7b359c5efa13675c, 0x6ca1754c912d29b3, 0x5304b985c92225b6, 0x85dbc6f7a933388f, 0x2d0a9bac8c3a6497, 0xa46bf8765b236cd4, 0xe691c09108e32e64, 0x72f2c653a61d62da, 0xe9232719633e6629] := by decide +kernel
theorem two_0_7 : (rnd 7 (ofFlat [0xb4418372ecdc1455, 0xf8d04b8b26c4e51c, 0x175b51f61ce48555, 0x985d92de8a9c29ba, 0x3dcf43c45e8912db, 0x48ee26dfedd60a9b, 0x2f9f8afc838dddd7, 0x23f5a4f7c567345e, 0xd627e046d73b1fe, 0x39f2fe6512bb34c3, 0xa3719d108f857e01, 0x9addd90d000cf96e, 0xacc938a742811eb3, 0x67c37199d6241413, 0x9025ba2bbc41c5f, 0x48de1b3384531f15, 0x7b359c5efa13675c, 0x6ca1754c912d29b3, 0x5304b985c92225b6, 0x85dbc6f7a933388f, 0x2d0a9bac8c3a6497, 0xa46bf8765b236cd4, 0xe691c09108e32e64, 0x72f2c653a61d62da, 0xe9232719633e6629])).flat = [0xb20d70fbd9c01b36, 0x2de4401bbf52802e, 0xc37700c1a08cffde, 0x149a3332da7cbfd9, 0x24124f0182c0138f, 0xcf196640341c5f5e, 0x4fdcf40ebc38e4f6, 0x633311c0d082d59d, 0xa0ab8c327a014f3d, 0xda0d1701b40e4ec7, 0xfcb01a9f0a536917, 0x4f0760cf3c5b0b27, 0x62dcfceb2d5cb559, 0x883c25ef00877628, 0x909185ea643da555, 0xc26dcb76d014e098, 0x8c77b240fb299141, 0xf7e64dac8ec0f512, 0xe6569012bef42cb4, 0x7ba10bb1f9d63e66, 0x9ef01870a53aaf57, 0xa8615d8cd38260ea, 0x16507fd56ed4b168, 0x871f66398bc6d723, 0xca30870f33f09db6] := by decide +kernel
theorem two_0_8 : (rnd 8 (ofFlat [0xb20d70fbd9c01b36, 0x2de4401bbf52802e, 0xc37700c1a08cffde, 0x149a3332da7cbfd9, 0x24124f0182c0138f, 0xcf196640341c5f5e, 0x4fdcf40ebc38e4f6, 0x633311c0d082d59d, 0xa0ab8c327a014f3d, 0xda0d1701b40e4ec7, 0xfcb01a9f0a536917, 0x4f0760cf3c5b0b27, 0x62dcfceb2d5cb559, 0x883c25ef00877628, 0x909185ea643da555, 0xc26dcb76d014e098, 0x8c77b240fb299141, 0xf7e64dac8ec0f512, 0xe6569012bef42cb4, 0x7ba10bb1f9d63e66, 0x9ef01870a53aaf57, 0xa8615d8cd38260ea, 0x16507fd56ed4b168, 0x871f66398bc6d723, 0xca30870f33f09db6])).flat = [0xcbc5c5030e937c53, 0x420a6c4b884cfd14, 0xe6ec7e5d68f3a38a, 0x8f0614096fef1ccf, 0xd56b889608238a41, 0x280aa02a89084f1, 0x7806488d7d9353cc, 0xdbf1fe34ed8b2b00, 0x29e72ef05ac88620, 0xcbe73e40d1889bd, 0xe60040382afea8bc, 0x307df7b37aa85bf8, 0xc3389d1786635ad1, 0x97d9305dd2b2fc95, 0xfc9cdca820c919b4, 0x81927d1c742060bd, 0x6c5b539425c433aa, 0x84012d4bdc7a57c9, 0xd6198921e4e02667, 0xe65b8dbb024339bb, 0x4b59a94f42127a5, 0x431f95fc84ab7e94, 0x5f9eb39b7d0977ca, 0xf92ef28d40d93848, 0x2f1eb34ceee08278] := by decide +kernel
theorem two_0_9 : (rnd 9 (ofFlat [0xcbc5c5030e937c53, 0x420a6c4b884cfd14, 0xe6ec7e5d68f3a38a, 0x8f0614096fef1ccf, 0xd56b889608238a41, 0x280aa02a89084f1, 0x7806488d7d9353cc, 0xdbf1fe34ed8b2b00, 0x29e72ef05ac88620, 0xcbe73e40d1889bd, 0xe60040382afea8bc, 0x307df7b37aa85bf8, 0xc3389d1786635ad1, 0x97d9305dd2b2fc95, 0xfc9cdca820c919b4, 0x81927d1c742060bd, 0x6c5b539425c433aa, 0x84012d4bdc7a57c9, 0xd6198921e4e02667, 0xe65b8dbb024339bb, 0x4b59a94f42127a5, 0x431f95fc84ab7e94, 0x5f9eb39b7d0977ca, 0xf92ef28d40d93848, 0x2f1eb34ceee08278])).flat = [0x7d33f05418f36d4c, 0xe80f28b37c73355d, 0x1cd206dd8b58d969, 0x73b8d7626ff6d3e7, 0x96cda4ac350c0b6e, 0xc6e0c3e80789c24d, 0xe5744dfd5862ec, 0xc3e7b16fb4f3ea18, 0x3d23d3e196ad45ad, 0xf0d39c9722dd02ef, 0x77ff7c504c60f46, 0x36ab4f1131f3ed9c, 0x77c4f69c7cd4ff41, 0xd15f931017eff7ad, 0x168d8d17ea526b7e, 0xc2739660dc7d2143, 0x9a07567f477755c3, 0xaae5f88866e12b4d, 0x8db0083d8b33c7d3, 0x1a00cc497a708299, 0xf7f4364419669aeb, 0x36aa22cb42351759, 0x46a69e5b391c4135, 0xb6b2965be8f8dd87, 0x882b68c8b08b359a] := by decide +kernel
theorem two_0_10 : (rnd 10 (ofFlat [0x7d33f05418f36d4c, 0xe80f28b37c73355d, 0x1cd206dd8b58d969, 0x73b8d7626ff6d3e7, 0x96cda4ac350c0b6e, 0xc6e0c3e80789c24d, 0xe5744dfd5862ec, 0xc3e7b16fb4f3ea18, 0x3d23d3e196ad45ad, 0xf0d39c9722dd02ef, 0x77ff7c504c60f46, 0x36ab4f1131f3ed9c, 0x77c4f69c7cd4ff41, 0xd15f931017eff7ad, 0x168d8d17ea526b7e, 0xc2739660dc7d2143, 0x9a07567f477755c3, 0xaae5f88866e12b4d, 0x8db0083d8b33c7d3, 0x1a00cc497a708299, 0xf7f4364419669aeb, 0x36aa22cb42351759, 0x46a69e5b391c4135, 0xb6b2965be8f8dd87, 0x882b68c8b08b359a])).flat = [0x7ed7a52bc4bf8fc7, 0xb3021012edbe29ef, 0xefa40a43b62d6733, 0x834d27590cc3ce11, 0x6b69b02e3f3d2f8f, 0x51b01ddf6b6eb7bc, 0x7d97bfc5e396642f, 0xf510aeeb41d5764, 0xf01793e9029bb03a, 0x23b9ff5df2df49dd, 0x9e8a0e192fa2cd44, 0xb1f571cca4b7b6be, 0x4bbb29508080397c, 0xc08d054b47cef1a8, 0x8408656839bef069, 0x11b9783957e8ebf5, 0xfa42497e88058f25, 0xa1b1cb492a7b8fcb, 0xc614eeea934ea8ed, 0x9a717556f49b8fd0, 0x786d158b458b3567, 0x4e5652618362be24, 0xaa078d609eeb2c75, 0x60633b836f90c026, 0xdd8645d2342d4a98] := by decide +kernel
theorem two_0_11 : (rnd 11 (ofFlat [0x7ed7a52bc4bf8fc7, 0xb3021012edbe29ef, 0xefa40a43b62d6733, 0x834d27590cc3ce11, 0x6b69b02e3f3d2f8f, 0x51b01ddf6b6eb7bc, 0x7d97bfc5e396642f, 0xf510aeeb41d5764, 0xf01793e9029bb03a, 0x23b9ff5df2df49dd, 0x9e8a0e192fa2cd44, 0xb1f571cca4b7b6be, 0x4bbb29508080397c, 0xc08d054b47cef1a8, 0x8408656839bef069, 0x11b9783957e8ebf5, 0xfa42497e88058f25, 0xa1b1cb492a7b8fcb, 0xc614eeea934ea8ed, 0x9a717556f49b8fd0, 0x786d158b458b3567, 0x4e5652618362be24, 0xaa078d609eeb2c75, 0x60633b836f90c026, 0xdd8645d2342d4a98])).flat = [0x6b5534a523acc242, 0xf1bb9c45697735dc, 0x2c0af55d152b425e, 0x821983f812ea161c, 0x7555631136b1ff81, 0x3d53b826725ea79f, 0x5316337eb4d94e28, 0x5b26e472c7c81755, 0xaa05607778ff9c02, 0x8b427371a6100533, 0x57a66dea0736bad6, 0x79c6b9db9e0763fb, 0x5660f5f9bc6c423f, 0xe3255aedd76deb6f, 0x9c35585613add687, 0x2df24097fe75f330, 0xc577138483fad4d3, 0xe596680bb300a4ac, 0xea945815c3d7b3d2, 0x96d3c6616838604d, 0x48e42488f30018f7, 0xa07b9aec93aeebdf, 0x73053551edd5a25e, 0xe7d8f398f4c14635, 0x7a7e023df461a583] := by decide +kernel
theorem two_0_12 : (rnd 12 (ofFlat [0x6b5534a523acc242, 0xf1bb9c45697735dc, 0x2c0af55d152b425e, 0x821983f812ea161c, 0x7555631136b1ff81, 0x3d53b826725ea79f, 0x5316337eb4d94e28, 0x5b26e472c7c81755, 0xaa05607778ff9c02, 0x8b427371a6100533, 0x57a66dea0736bad6, 0x79c6b9db9e0763fb, 0x5660f5f9bc6c423f, 0xe3255aedd76deb6f, 0x9c35585613add687, 0x2df24097fe75f330, 0xc577138483fad4d3, 0xe596680bb300a4ac, 0xea945815c3d7b3d2, 0x96d3c6616838604d, 0x48e42488f30018f7, 0xa07b9aec93aeebdf, 0x73053551edd5a25e, 0xe7d8f398f4c14635, 0x7a7e023df461a583])).flat = [0xbb758df9192f9237, 0xcc0fb149e85100f8, 0xe4669936287e229a, 0x30a9a14ab5682a39, 0xc20da25b32735518, 0x9d7f942ae8d3a7b, 0x6769b88583ed53ac, 0x2f37f4a5fd8a49d5, 0xf9b2f5cdde3c553f, 0xbe19116dd40ef00a, 0xf444e4442075c41e, 0xea9bcb653a0a5ed2, 0x7fb234f874b163f5, 0x6bfab215345d46b0, 0x555a279ee62cf052, 0x80733894731023db, 0x6f102e3ca531b7c8, 0x397fd6d68968f9cb, 0x793e9a146e4120d5, 0x2b4d1e7a40daa480, 0x47b457cb9482fb8c, 0xbda87bd6f6fcd727, 0x59d5e6c914a80ae5, 0xb689d87f71e7db89, 0xb5c9922aa196f659] := by decide +kernel
theorem two_0_13 : (rnd 13 (ofFlat [0xbb758df9192f9237, 0xcc0fb149e85100f8, 0xe4669936287e229a, 0x30a9a14ab5682a39, 0xc20da25b32735518, 0x9d7f942ae8d3a7b, 0x6769b88583ed53ac, 0x2f37f4a5fd8a49d5, 0xf9b2f5cdde3c553f, 0xbe19116dd40ef00a, 0xf444e4442075c41e, 0xea9bcb653a0a5ed2, 0x7fb234f874b163f5, 0x6bfab215345d46b0, 0x555a279ee62cf052, 0x80733894731023db, 0x6f102e3ca531b7c8, 0x397fd6d68968f9cb, 0x793e9a146e4120d5, 0x2b4d1e7a40daa480, 0x47b457cb9482fb8c, 0xbda87bd6f6fcd727, 0x59d5e6c914a80ae5, 0xb689d87f71e7db89, 0xb5c9922aa196f659])).flat = [0x2666fa95aac648e2, 0x63281aa5a154c8ea, 0x8c1e8196c6746d3b, 0x5a222459e6981530, 0x236cc4049636a635, 0xf495ecbbe8f785bf, 0x7bd74aa5eeb305c8, 0x282db6dd3e61c2e3, 0xa24d0348868d61b, 0xb45a50b14f98c0b, 0xcb6c7863c63e826d, 0xef8a879f7ba67a19, 0xa705c1602eb15544, 0x116dfbe3be2ae56c, 0xb25740b8b29b03c5, 0x15023b3bdd7bcfc7, 0xb24d723b81e4f387, 0x8994e44de273bb28, 0x94a12e590ddbbf8b, 0x8c611480fa8b682f, 0xeb6fd9e8e978a0aa, 0x3ff115f4e41185dc, 0x42d01c4bd7c13a1, 0x5cffa3a2640977ac, 0x546d7c6dfaca117e] := by decide +kernel
theorem two_0_14 : (rnd 14 (ofFlat [0x2666fa95aac648e2, 0x63281aa5a154c8ea, 0x8c1e8196c6746d3b, 0x5a222459e6981530, 0x236cc4049636a635, 0xf495ecbbe8f785bf, 0x7bd74aa5eeb305c8, 0x282db6dd3e61c2e3, 0xa24d0348868d61b, 0xb45a50b14f98c0b, 0xcb6c7863c63e826d, 0xef8a879f7ba67a19, 0xa705c1602eb15544, 0x116dfbe3be2ae56c, 0xb25740b8b29b03c5, 0x15023b3bdd7bcfc7, 0xb24d723b81e4f387, 0x8994e44de273bb28, 0x94a12e590ddbbf8b, 0x8c611480fa8b682f, 0xeb6fd9e8e978a0aa, 0x3ff115f4e41185dc, 0x42d01c4bd7c13a1, 0x5cffa3a2640977ac, 0x546d7c6dfaca117e])).flat = [0x33c3d50338120221, 0xd1a369133e46e5cb, 0xb2466ecb1d06dcc2, 0x69fa184089414355, 0x71d160e629ec20f9, 0xf0b39e2f97169a7c, 0xeea8ff863c28dd17, 0xe56b5a616ad1a1bb, 0x3e9e21543f389e43, 0x99db63fdbdb60c3, 0xfba624d40e1c955c, 0x32c01184f0f7209a, 0xaaef763c1a370ec4, 0x820fcacf9fda7dca, 0xc0097112ba2232bb, 0x62793264b39c4aba, 0x98ff1ddc3748149d, 0x5db587635770b451, 0x2a5240ae106492e1, 0x75d2d932b0cd9c81, 0xf9f985193bb95403, 0xa72977ad1530f61a, 0xd5922fc25ae5fc16, 0xa7325e07a675da98, 0x1076da1d9d2ca63b] := by decide +kernel
theorem two_0_15 : (rnd 15 (ofFlat [0x33c3d50338120221, 0xd1a369133e46e5cb, 0xb2466ecb1d06dcc2, 0x69fa184089414355, 0x71d160e629ec20f9, 0xf0b39e2f97169a7c, 0xeea8ff863c28dd17, 0xe56b5a616ad1a1bb, 0x3e9e21543f389e43, 0x99db63fdbdb60c3, 0xfba624d40e1c955c, 0x32c01184f0f7209a, 0xaaef763c1a370ec4, 0x820fcacf9fda7dca, 0xc0097112ba2232bb, 0x62793264b39c4aba, 0x98ff1ddc3748149d, 0x5db587635770b451, 0x2a5240ae106492e1, 0x75d2d932b0cd9c81, 0xf9f985193bb95403, 0xa72977ad1530f61a, 0xd5922fc25ae5fc16, 0xa7325e07a675da98, 0x1076da1d9d2ca63b])).flat = [0xa33ea22dc2c3d3b, 0x9980bc435aa6dd4f, 0x98a2795f386e8e8d, 0xe037d421c998b294, 0x501d4478196983f3, 0xe1af58098a75cfbb, 0x4869493af357cb6f, 0x1303d68ee5d1470a, 0xbe16f6894a773adb, 0xaea3223a87ac0af7, 0x125c4d7d25bb51cd, 0xccde397054218930, 0xe81a3bae2c305256, 0x66894bbd0c51566b, 0x24f0ce3bf6a98c9f, 0xb344a7596a7ae0ac, 0xba103c4ed87226b3, 0x717dbce13113d9c9, 0x3a737f7a4c9f7e5b, 0x157b4cf96c89e870, 0x5c15b5fdbeb418f3, 0xe5f85c5155c2505e, 0x5d6f5fe7e690fc2b, 0x17ec15f74ab8366f, 0x1db9a51bb2d40b53] := by decide +kernel
theorem two_0_16 : (rnd 16 (ofFlat [0xa33ea22dc2c3d3b, 0x9980bc435aa6dd4f, 0x98a2795f386e8e8d, 0xe037d421c998b294, 0x501d4478196983f3, 0xe1af58098a75cfbb, 0x4869493af357cb6f, 0x1303d68ee5d1470a, 0xbe16f6894a773adb, 0xaea3223a87ac0af7, 0x125c4d7d25bb51cd, 0xccde397054218930, 0xe81a3bae2c305256, 0x66894bbd0c51566b, 0x24f0ce3bf6a98c9f, 0xb344a7596a7ae0ac, 0xba103c4ed87226b3, 0x717dbce13113d9c9, 0x3a737f7a4c9f7e5b, 0x157b4cf96c89e870, 0x5c15b5fdbeb418f3, 0xe5f85c5155c2505e, 0x5d6f5fe7e690fc2b, 0x17ec15f74ab8366f, 0x1db9a51bb2d40b53])).flat = [0xcd3cb390d2d8c202, 0x4cc13e1a0799b186, 0x5e55d4114458b51, 0x6680bc91233e1841, 0x7d98914f6efa68ed, 0xf335dc1c72ea6606, 0x647446fac999a97f, 0x2df9bed38a4b056c, 0xd83cc67f07e9c668, 0xc2fbdc5a9ca96e47, 0x22876a8d303fb457, 0xe58feac0a860b1de, 0x76a75d5ae51c59ed, 0x6f10da2c09eb9449, 0x7d33a17036442d12, 0x1a55057a29794cf0, 0xc35d869b65c6170f, 0x50f5963de3b9c215, 0x9e3293e0c4a0446, 0xedf7f760f984c448, 0xc50f09006c471cc, 0xcd03dbc1eef4d045, 0x14127588628b2398, 0x19ab5d50eb7fde2d, 0x70477e479addd089] := by decide +kernel
theorem two_0_17 : (rnd 17 (ofFlat [0xcd3cb390d2d8c202, 0x4cc13e1a0799b186, 0x5e55d4114458b51, 0x6680bc91233e1841, 0x7d98914f6efa68ed, 0xf335dc1c72ea6606, 0x647446fac999a97f, 0x2df9bed38a4b056c, 0xd83cc67f07e9c668, 0xc2fbdc5a9ca96e47, 0x22876a8d303fb457, 0xe58feac0a860b1de, 0x76a75d5ae51c59ed, 0x6f10da2c09eb9449, 0x7d33a17036442d12, 0x1a55057a29794cf0, 0xc35d869b65c6170f, 0x50f5963de3b9c215, 0x9e3293e0c4a0446, 0xedf7f760f984c448, 0xc50f09006c471cc, 0xcd03dbc1eef4d045, 0x14127588628b2398, 0x19ab5d50eb7fde2d, 0x70477e479addd089])).flat = [0xf4215037ae2365e0, 0x8ec9a3edfceaab33, 0xeab4b8945359ecea, 0xdcc75ecb34158f77, 0x9845ae6d565ba12b, 0xd41c24decabb5d97, 0x9099ca27d83020ce, 0xdd7029824cc2b797, 0x5bb35aa75591e7c4, 0x48957a7562796db4, 0x4dac6b9595d6f8a6, 0x51b62c78e29840bb, 0x81674b0bcd24585f, 0xc5a21b487d4e3d3b, 0x3c8ff8920bbb50fd, 0xa45f9c9d874b586f, 0xf8045632a5f5fab0, 0x7033710ceb886cfc, 0x5c4fc56d0337940d, 0xd2bc758888dfe106, 0x45132d0cbb43344a, 0x42b2d42ada6c30ef, 0x5e73a194e4484183, 0x364ead1ef2bcaba1, 0xee6e9766d48accc6] := by decide +kernel
theorem two_0_18 : (rnd 18 (ofFlat [0xf4215037ae2365e0, 0x8ec9a3edfceaab33, 0xeab4b8945359ecea, 0xdcc75ecb34158f77, 0x9845ae6d565ba12b, 0xd41c24decabb5d97, 0x9099ca27d83020ce, 0xdd7029824cc2b797, 0x5bb35aa75591e7c4, 0x48957a7562796db4, 0x4dac6b9595d6f8a6, 0x51b62c78e29840bb, 0x81674b0bcd24585f, 0xc5a21b487d4e3d3b, 0x3c8ff8920bbb50fd, 0xa45f9c9d874b586f, 0xf8045632a5f5fab0, 0x7033710ceb886cfc, 0x5c4fc56d0337940d, 0xd2bc758888dfe106, 0x45132d0cbb43344a, 0x42b2d42ada6c30ef, 0x5e73a194e4484183, 0x364ead1ef2bcaba1, 0xee6e9766d48accc6])).flat = [0xae6d702276593378, 0x8d0b18cb07b09870, 0x6710f1ec56523473, 0x24062b3d22b5b6db, 0xae7aaa09bec6ff48, 0xd2ef3806f633bca2, 0xecff3d6370f1dd5, 0xe20144342d227929, 0x81f1e48733ab5649, 0x5241f2433166318f, 0x6feb60371784b2f8, 0xb39025d4f6dafb7f, 0x2a6ff8e04bd58106, 0x975f14ee1352c9e3, 0xb0f6ad2eff35fdfb, 0x1b4ca6873588cd25, 0xa41e6446bf1276b9, 0xa755484781ebc332, 0xac04ccecf8d7ee67, 0x1d1df65391ee483e, 0xc2123c64ccc80a44, 0x2e7740de7335ebd5, 0xa7919a04e1a90dbf, 0x62c5fd78afbb5542, 0xd284beb08674b312] := by decide +kernel
theorem two_0_19 : (rnd 19 (ofFlat [0xae6d702276593378, 0x8d0b18cb07b09870, 0x6710f1ec56523473, 0x24062b3d22b5b6db, 0xae7aaa09bec6ff48, 0xd2ef3806f633bca2, 0xecff3d6370f1dd5, 0xe20144342d227929, 0x81f1e48733ab5649, 0x5241f2433166318f, 0x6feb60371784b2f8, 0xb39025d4f6dafb7f, 0x2a6ff8e04bd58106, 0x975f14ee1352c9e3, 0xb0f6ad2eff35fdfb, 0x1b4ca6873588cd25, 0xa41e6446bf1276b9, 0xa755484781ebc332, 0xac04ccecf8d7ee67, 0x1d1df65391ee483e, 0xc2123c64ccc80a44, 0x2e7740de7335ebd5, 0xa7919a04e1a90dbf, 0x62c5fd78afbb5542, 0xd284beb08674b312])).flat = [0xd9529b438dd3bc57, 0xff2f5d13473d2f27, 0x3e70c9446b29c35e, 0x422eddea9263b2e0, 0x2a45433aa75c6d22, 0x8bc49a40b8e514fc, 0xc730b79de8cba675, 0xcaa498030040bd7c, 0xd26b246b8dc80aae, 0x4894f50fed37f957, 0x34922d0fb7b0df61, 0x33beda6ad96de9bc, 0x731dd8b622bc8961, 0x3be8738a122ee675, 0x5e4a2d685cabd47d, 0x49919cc87e218daa, 0xead32de25e01907c, 0x4aa78eefe5337d99, 0xf2ff1830d01452f5, 0xa0c1f72b0d3551d7, 0xa93637e37d957ac2, 0x5d145090fed8e966, 0x4c1e964e48511769, 0x4ac3155cb1f6885, 0xb8577362f116d1f6] := by decide +kernel
theorem two_0_20 : (rnd 20 (ofFlat [0xd9529b438dd3bc57, 0xff2f5d13473d2f27, 0x3e70c9446b29c35e, 0x422eddea9263b2e0, 0x2a45433aa75c6d22, 0x8bc49a40b8e514fc, 0xc730b79de8cba675, 0xcaa498030040bd7c, 0xd26b246b8dc80aae, 0x4894f50fed37f957, 0x34922d0fb7b0df61, 0x33beda6ad96de9bc, 0x731dd8b622bc8961, 0x3be8738a122ee675, 0x5e4a2d685cabd47d, 0x49919cc87e218daa, 0xead32de25e01907c, 0x4aa78eefe5337d99, 0xf2ff1830d01452f5, 0xa0c1f72b0d3551d7, 0xa93637e37d957ac2, 0x5d145090fed8e966, 0x4c1e964e48511769, 0x4ac3155cb1f6885, 0xb8577362f116d1f6])).flat = [0x179304fa5d2a8bd0, 0x88e7203ee121aa39, 0x440cad23ba7eec6, 0xe93f2a8960073732, 0xd7d8f97a4d3f8a33, 0x7a217ac6129c2223, 0x78db989f4950015, 0x2a9ddb9708d81d0b, 0x97762582399885e3, 0xe9be36a953607815, 0x56d9dcab36a529cc, 0x57fcd076118bdff3, 0x6166583509ee03b7, 0x48c91a39c4f4f1f0, 0xc64ced9ee511d1ed, 0xcc4c3841e2dfe730, 0xea2e7eff6665e79f, 0xd5f2f2cce9cbafbe, 0xdbc2b7779578269e, 0x44ef85123cfa6ffa, 0xe2ac981d49de42b, 0x2b29c4ed096f9e5b, 0x415bb9d723c42c2b, 0x86dcf4ab84396670, 0xc4ded41ed357528f] := by decide +kernel
theorem two_0_21 : (rnd 21 (ofFlat [0x179304fa5d2a8bd0, 0x88e7203ee121aa39, 0x440cad23ba7eec6, 0xe93f2a8960073732, 0xd7d8f97a4d3f8a33, 0x7a217ac6129c2223, 0x78db989f4950015, 0x2a9ddb9708d81d0b, 0x97762582399885e3, 0xe9be36a953607815, 0x56d9dcab36a529cc, 0x57fcd076118bdff3, 0x6166583509ee03b7, 0x48c91a39c4f4f1f0, 0xc64ced9ee511d1ed, 0xcc4c3841e2dfe730, 0xea2e7eff6665e79f, 0xd5f2f2cce9cbafbe, 0xdbc2b7779578269e, 0x44ef85123cfa6ffa, 0xe2ac981d49de42b, 0x2b29c4ed096f9e5b, 0x415bb9d723c42c2b, 0x86dcf4ab84396670, 0xc4ded41ed357528f])).flat = [0xa4aa81698fb24788, 0x85c6e48b4f6e91a5, 0xf057a50ccc7198c0, 0x276184050b9f94c2, 0xb53d4f5d58247f1, 0x8a9fb7fa3c61c4e6, 0x7ef08a179d3982ad, 0x2e980a3cab717ed4, 0x1a6db7a0f10ee103, 0xb5fed4feeb02a7fd, 0x2f86f65c9e1bc5c1, 0x4765645edf6d87b9, 0xb4b3512f4e42dbfd, 0xe171f502677af559, 0x75b95851eac93671, 0x84f024312012e02b, 0x81324fb3518f6f91, 0x77936aff9aac4063, 0xc6314938fa3f0dee, 0xe2afb29253d1633c, 0xb69b71b8523f364a, 0x99df6960bca16065, 0xdc6a391ff00c4dfa, 0xcf7a510feb695d10, 0x984645f639cbaaa4] := by decide +kernel
theorem two_0_22 : (rnd 22 (ofFlat [0xa4aa81698fb24788, 0x85c6e48b4f6e91a5, 0xf057a50ccc7198c0, 0x276184050b9f94c2, 0xb53d4f5d58247f1, 0x8a9fb7fa3c61c4e6, 0x7ef08a179d3982ad, 0x2e980a3cab717ed4, 0x1a6db7a0f10ee103, 0xb5fed4feeb02a7fd, 0x2f86f65c9e1bc5c1, 0x4765645edf6d87b9, 0xb4b3512f4e42dbfd, 0xe171f502677af559, 0x75b95851eac93671, 0x84f024312012e02b, 0x81324fb3518f6f91, 0x77936aff9aac4063, 0xc6314938fa3f0dee, 0xe2afb29253d1633c, 0xb69b71b8523f364a, 0x99df6960bca16065, 0xdc6a391ff00c4dfa, 0xcf7a510feb695d10, 0x984645f639cbaaa4])).flat = [0x3428f76573c8674f, 0x97702ec27ce6f417, 0x4721ad5c1253ffb9, 0x4759db30eba4edb1, 0xef7a8a2d52d51aa1, 0xc35db1bd9b5ef714, 0x4dea437550506793, 0xb0383b0ec2036bb4, 0xf2ff4e8e2870e005, 0x56773345810c6e4c, 0x6a3a68866e98cb11, 0x3aa04114a4819758, 0x12204ce19c872627, 0x486cca03a59c0544, 0xa503204fd902c62, 0x9536a5a84dd4f08d, 0x4faf967adc5aa54, 0x58a39c1f31de5a8c, 0x39f510f1edff3ca5, 0x8be55ca5adf42322, 0xbc02c94e8357aa5a, 0x5c4c03ba71c77d67, 0xfbc3d0e28f5627ec, 0xca138af6eee3f06e, 0xe46e9fc18222440d] := by decide +kernel
theorem two_0_23 : (rnd 23 (ofFlat [0x3428f76573c8674f, 0x97702ec27ce6f417, 0x4721ad5c1253ffb9, 0x4759db30eba4edb1, 0xef7a8a2d52d51aa1, 0xc35db1bd9b5ef714, 0x4dea437550506793, 0xb0383b0ec2036bb4, 0xf2ff4e8e2870e005, 0x56773345810c6e4c, 0x6a3a68866e98cb11, 0x3aa04114a4819758, 0x12204ce19c872627, 0x486cca03a59c0544, 0xa503204fd902c62, 0x9536a5a84dd4f08d, 0x4faf967adc5aa54, 0x58a39c1f31de5a8c, 0x39f510f1edff3ca5, 0x8be55ca5adf42322, 0xbc02c94e8357aa5a, 0x5c4c03ba71c77d67, 0xfbc3d0e28f5627ec, 0xca138af6eee3f06e, 0xe46e9fc18222440d])).flat = [0xc9834334d2362f28, 0x2b8ba51237858fc4, 0xf9edb9bd888c78bd, 0x5dc691d14fe45f12, 0x11ca79d90002606b, 0xe6a4764f80aa5cf6, 0xf8f4d02ad44b4adf, 0x36ec33af3b7394f6, 0xa6a7a3c4fb6ac06e, 0xb3b1d19d16784d8f, 0xdfd0fba7398be6a5, 0x3e4d8506074c0b20, 0x3a497beedf7f7688, 0x760c6e1a9bccb2e4, 0x96e1aa9cced04e74, 0xbd2cdeed084d065f, 0x6aa4e537e9afeea1, 0xa589e42e64344449, 0x788acfc004cafa2c, 0x67b7c69e493fd2c0, 0xd08c0c07a6228e0c, 0x786c165daee1060, 0x7d75a338406c6735, 0x683dec7172a2d9c8, 0x9513375f3f9b8919] := by decide +kernel

theorem two_perm0 {A : St} (h : A.flat = [0x706050403020100, 0xf0e0d0c0b0a0908, 0x1716151413121110, 0x1f1e1d1c1b1a1918, 0x2726252423222120, 0x2f2e2d2c2b2a2928, 0x3736353433323130, 0x3f3e3d3c3b3a3938, 0x4746454443424140, 0x4f4e4d4c4b4a4948, 0x5756555453525150, 0x5f5e5d5c5b5a5958, 0x6766656463626160, 0x6f6e6d6c6b6a6968, 0x7776757473727170, 0x7f7e7d7c7b7a7978, 0x8786858483828180, 0x0, 0x0, 0x0, 0x0, 0x0, 0x0, 0x0, 0x0]) : EqSt (keccakF A) (ofFlat [0xc9834334d2362f28, 0x2b8ba51237858fc4, 0xf9edb9bd888c78bd, 0x5dc691d14fe45f12, 0x11ca79d90002606b, 0xe6a4764f80aa5cf6, 0xf8f4d02ad44b4adf, 0x36ec33af3b7394f6, 0xa6a7a3c4fb6ac06e, 0xb3b1d19d16784d8f, 0xdfd0fba7398be6a5, 0x3e4d8506074c0b20, 0x3a497beedf7f7688, 0x760c6e1a9bccb2e4, 0x96e1aa9cced04e74, 0xbd2cdeed084d065f, 0x6aa4e537e9afeea1, 0xa589e42e64344449, 0x788acfc004cafa2c, 0x67b7c69e493fd2c0, 0xd08c0c07a6228e0c, 0x786c165daee1060, 0x7d75a338406c6735, 0x683dec7172a2d9c8, 0x9513375f3f9b8919]) :=
  ((((((((((((((((((((((((eqSt_of_flat h).step two_0_0).step two_0_1).step two_0_2).step two_0_3).step two_0_4).step two_0_5).step two_0_6).step two_0_7).step two_0_8).step two_0_9).step two_0_10).step two_0_11).step two_0_12).step two_0_13).step two_0_14).step two_0_15).step two_0_16).step two_0_17).step two_0_18).step two_0_19).step two_0_20).step two_0_21).step two_0_22).step two_0_23

theorem two_1_0 : (rnd 0 (ofFlat [0x460dceb859bca6a0, 0xbc1d3086a4171e54, 0x667324211316e125, 0xfa603475ec46feb2, 0xbe64d475aba8c9c3, 0x5112c3fb3318ed46, 0x474a6d966ff1f367, 0xf12af66bf8b15536, 0xa6a7a3c4fb6ac06f, 0xb3b1d19d16784d8f, 0xdfd0fba7398be6a5, 0x3e4d8506074c0b20, 0x3a497beedf7f7688, 0x760c6e1a9bccb2e4, 0x96e1aa9cced04e74, 0xbd2cdeed084d065f, 0xeaa4e537e9afeea1, 0xa589e42e64344449, 0x788acfc004cafa2c, 0x67b7c69e493fd2c0, 0xd08c0c07a6228e0c, 0x786c165daee1060, 0x7d75a338406c6735, 0x683dec7172a2d9c8, 0x9513375f3f9b8919])).flat = [0x57686ba4a35e3260, 0x835b70dcc96ccb68, 0x41db0cb49b9ccf80, 0x95ab806721fdce52, 0x69459fff9338b076, 0xdf727b1d6d08c079, 0xf9a4770ac73db18c, 0x15bae5b7379a7705, 0x9a4796021703a4cd, 0x84b7996bab66f50f, 0x60579b99f18cf145, 0x6abb17b4a6d2abaf, 0x2da96ae10ba101db, 0x50461bd177bf6c16, 0xb2457564bb67a31c, 0xfc0c2229cef793b0, 0x84aad4358f365858, 0x4431f3f49fdefad8, 0x463eb7275786ec84, 0xef6e21a9a8692757, 0x6f95b1727f725f5, 0x360804f09411f381, 0x6cd50447219215fe, 0x35602e099eb182e6, 0x5c0c4d412bf8af9] := by decide +kernel
theorem two_1_1 : (rnd 1 (ofFlat [0x57686ba4a35e3260, 0x835b70dcc96ccb68, 0x41db0cb49b9ccf80, 0x95ab806721fdce52, 0x69459fff9338b076, 0xdf727b1d6d08c079, 0xf9a4770ac73db18c, 0x15bae5b7379a7705, 0x9a4796021703a4cd, 0x84b7996bab66f50f, 0x60579b99f18cf145, 0x6abb17b4a6d2abaf, 0x2da96ae10ba101db, 0x50461bd177bf6c16, 0xb2457564bb67a31c, 0xfc0c2229cef793b0, 0x84aad4358f365858, 0x4431f3f49fdefad8, 0x463eb7275786ec84, 0xef6e21a9a8692757, 0x6f95b1727f725f5, 0x360804f09411f381, 0x6cd50447219215fe, 0x35602e099eb182e6, 0x5c0c4d412bf8af9])).flat = [0xe2ecd647cdf99148, 0x9a0554d4cfbf421b, 0x6d4cb72f361b9e47, 0x4f278645709e28b3, 0x751ecd4f200a6130, 0xc4a8807bdaf961c2, 0xd4eaee5f7de9d32d, 0x96d53befd9502fcc, 0xcc32a6c813712547, 0x4abb37be955bc5fb, 0x774ec0da9a810786, 0x660303e13c961c19, 0x243ff419b69ce294, 0xaf731e0dbaa5abe4, 0xbb54ec674859c8cc, 0x81b7dd987b8f1572, 0x3bf4f732fa608965, 0x6c38403b38f99b29, 0xc9829ecb11cc5ca7, 0x334e5f15c2944cc2, 0x6cb57bd1ce3579fc, 0x315ab067b4d78d12, 0x49f0a3fda416c94d, 0x844fbc51ba6bc731, 0x8ae0fd17e4fd2ba0] := by decide +kernel
theorem two_1_2 : (rnd 2 (ofFlat [0xe2ecd647cdf99148, 0x9a0554d4cfbf421b, 0x6d4cb72f361b9e47, 0x4f278645709e28b3, 0x751ecd4f200a6130, 0xc4a8807bdaf961c2, 0xd4eaee5f7de9d32d, 0x96d53befd9502fcc, 0xcc32a6c813712547, 0x4abb37be955bc5fb, 0x774ec0da9a810786, 0x660303e13c961c19, 0x243ff419b69ce294, 0xaf731e0dbaa5abe4, 0xbb54ec674859c8cc, 0x81b7dd987b8f1572, 0x3bf4f732fa608965, 0x6c38403b38f99b29, 0xc9829ecb11cc5ca7, 0x334e5f15c2944cc2, 0x6cb57bd1ce3579fc, 0x315ab067b4d78d12, 0x49f0a3fda416c94d, 0x844fbc51ba6bc731, 0x8ae0fd17e4fd2ba0])).flat = [0x9334988497670816, 0x338dc903dcc5d69e, 0xe896bf39d190500b, 0x848e40ed74fe2264, 0xc495f8daa0c090b4, 0x603242722487a5df, 0xadab727cc1813901, 0x61b8c114c87bd4fa, 0x62204d2412fc4901, 0xba95b0b203377763, 0xa22022c87be1b71d, 0x705f39bf3b77663f, 0x7f5ab9552aff514c, 0xd422f1c0750fe36b, 0x9cb50fda84b215bc, 0x1114c55dbb741d33, 0x147f89fbd786cf0c, 0xd811567f3554a1fb, 0x1a080fbbac9aea96, 0x86679e6c23c111d8, 0xe3d71a1804250b20, 0x793e398af71223d9, 0x85c7b7dd77988038, 0x3194bf1dfa76c40, 0xfe1eba7e61601504] := by decide +kernel
theorem two_1_3 : (rnd 3 (ofFlat [0x9334988497670816, 0x338dc903dcc5d69e, 0xe896bf39d190500b, 0x848e40ed74fe2264, 0xc495f8daa0c090b4, 0x603242722487a5df, 0xadab727cc1813901, 0x61b8c114c87bd4fa, 0x62204d2412fc4901, 0xba95b0b203377763, 0xa22022c87be1b71d, 0x705f39bf3b77663f, 0x7f5ab9552aff514c, 0xd422f1c0750fe36b, 0x9cb50fda84b215bc, 0x1114c55dbb741d33, 0x147f89fbd786cf0c, 0xd811567f3554a1fb, 0x1a080fbbac9aea96, 0x86679e6c23c111d8, 0xe3d71a1804250b20, 0x793e398af71223d9, 0x85c7b7dd77988038, 0x3194bf1dfa76c40, 0xfe1eba7e61601504])).flat = [0x4f84d60c319db66b, 0x9f125b491abb54a, 0xd25c67dacfdf77e3, 0xc8aad57c8fb99615, 0x5361da6c0096e586, 0xe86fd3b7c9bb581e, 0x617e067d476fec40, 0xfef922f498552d1a, 0xb1a0bd19dde6886c, 0xaa2896fd546fdb3f, 0x1f4772acc0dc5549, 0x6e8008caae298027, 0xf69f1fe478654024, 0xbc789c2d510e8fab, 0x13c93a7ff2d2f708, 0x4076c6bf0f4e0460, 0xc0f9a17e6c734b0c, 0xa8d4c09c5968a667, 0x2246fddcf89d060b, 0xd3143baaabc5fd71, 0x9e240feba5fd4b36, 0xa43c87555fd77e8a, 0x133c75fcff34b78d, 0x3542ed595197ff96, 0x36274d01d5cf2b06] := by decide +kernel
theorem two_1_4 : (rnd 4 (ofFlat [0x4f84d60c319db66b, 0x9f125b491abb54a, 0xd25c67dacfdf77e3, 0xc8aad57c8fb99615, 0x5361da6c0096e586, 0xe86fd3b7c9bb581e, 0x617e067d476fec40, 0xfef922f498552d1a, 0xb1a0bd19dde6886c, 0xaa2896fd546fdb3f, 0x1f4772acc0dc5549, 0x6e8008caae298027, 0xf69f1fe478654024, 0xbc789c2d510e8fab, 0x13c93a7ff2d2f708, 0x4076c6bf0f4e0460, 0xc0f9a17e6c734b0c, 0xa8d4c09c5968a667, 0x2246fddcf89d060b, 0xd3143baaabc5fd71, 0x9e240feba5fd4b36, 0xa43c87555fd77e8a, 0x133c75fcff34b78d, 0x3542ed595197ff96, 0x36274d01d5cf2b06])).flat = [0x56a34d9cffa7f368, 0xcfc60404677b826, 0xf3a253c46e3efb15, 0xdf19259e4303aed2, 0x3516d683eab7c66f, 0xdb66cfa2aa55676b, 0xff5da245b2425b11, 0x818137c5d764fe9a, 0x546584b65b6d9f2b, 0x1aba567cec136967, 0x5114e75220093efd, 0xb09b91e0e6fc2986, 0x5889f26c130588e6, 0x97a7e0650c7d445d, 0x7152bd9ffc1d110e, 0x3954e334f3675716, 0xf2896ba1e0adaa78, 0x40ef24bc29c8cfad, 0x9227a2634f2ea769, 0x6dc2fec07ce0eee3, 0xc106a95c550902d5, 0x9b63aa399eda4fdf, 0x921d18d79133886, 0x398581c4a7b15446, 0x2f7e9b2e73907b32] := by decide +kernel
theorem two_1_5 : (rnd 5 (ofFlat [0x56a34d9cffa7f368, 0xcfc60404677b826, 0xf3a253c46e3efb15, 0xdf19259e4303aed2, 0x3516d683eab7c66f, 0xdb66cfa2aa55676b, 0xff5da245b2425b11, 0x818137c5d764fe9a, 0x546584b65b6d9f2b, 0x1aba567cec136967, 0x5114e75220093efd, 0xb09b91e0e6fc2986, 0x5889f26c130588e6, 0x97a7e0650c7d445d, 0x7152bd9ffc1d110e, 0x3954e334f3675716, 0xf2896ba1e0adaa78, 0x40ef24bc29c8cfad, 0x9227a2634f2ea769, 0x6dc2fec07ce0eee3, 0xc106a95c550902d5, 0x9b63aa399eda4fdf, 0x921d18d79133886, 0x398581c4a7b15446, 0x2f7e9b2e73907b32])).flat = [0x1f1509cc4a12a2a2, 0xf50246c1642e9187, 0x7ce730e9dd6ee035, 0x124bf6f143bb3a7d, 0x89f9ca1ce45dfd0c, 0xb325d8038ccf8f5d, 0xb9fb5949096fcc90, 0x2e3c89f4c8765b20, 0x392a2b100a84eb, 0xe17a5384acb6c352, 0xdd4dd77982ddef3b, 0xdd183a74b4f13662, 0x81b1203fbb0af60, 0x348c322d46d356bb, 0x7431eef1ec982357, 0x468d3f472db8f50, 0xd60b213f5a0d3f4c, 0x4381564185a85852, 0xbc02de93849f4a64, 0xc0634d5a8db69751, 0xb1d03c5fbaa6f447, 0x43c6c28b129b3c75, 0x9d94fbd516c1ae53, 0xad05dbe871dce7fb, 0xa6a6ccb2a01c1801] := by decide +kernel
theorem two_1_6 : (rnd 6 (ofFlat [0x1f1509cc4a12a2a2, 0xf50246c1642e9187, 0x7ce730e9dd6ee035, 0x124bf6f143bb3a7d, 0x89f9ca1ce45dfd0c, 0xb325d8038ccf8f5d, 0xb9fb5949096fcc90, 0x2e3c89f4c8765b20, 0x392a2b100a84eb, 0xe17a5384acb6c352, 0xdd4dd77982ddef3b, 0xdd183a74b4f13662, 0x81b1203fbb0af60, 0x348c322d46d356bb, 0x7431eef1ec982357, 0x468d3f472db8f50, 0xd60b213f5a0d3f4c, 0x4381564185a85852, 0xbc02de93849f4a64, 0xc0634d5a8db69751, 0xb1d03c5fbaa6f447, 0x43c6c28b129b3c75, 0x9d94fbd516c1ae53, 0xad05dbe871dce7fb, 0xa6a6ccb2a01c1801])).flat = [0x4d5b33ca418df0f4, 0x1a07bbe8df9505e9, 0xbe62411e2b9e9567, 0xe3677c7df45b6744, 0x2f41d23081d501bd, 0xdad4b6cbbc271e86, 0xa377c6ebc4d770ac, 0x6d9c57594a1547d4, 0xe85a41e7aea5d5ee, 0x5fe83d54c8a449af, 0x70ca07909da0b4d8, 0x69c28533408e025d, 0x405943aa68936632, 0x71b7ec654901947c, 0x11186ca89a150df8, 0xd2b51858e4b91fdc, 0x552cd1ae502a351c, 0xc32ce21c1d2fca41, 0x63a86a2ed51d45b3, 0x18d5feb4711d8e03, 0x64cca86b03c203cd, 0x8a2903685d2f7491, 0x32e3964316fa706, 0xd8d1228aaf514973, 0x28949b8945a8391e] := by decide +kernel
theorem two_1_7 : (rnd 7 (ofFlat [0x4d5b33ca418df0f4, 0x1a07bbe8df9505e9, 0xbe62411e2b9e9567, 0xe3677c7df45b6744, 0x2f41d23081d501bd, 0xdad4b6cbbc271e86, 0xa377c6ebc4d770ac, 0x6d9c57594a1547d4, 0xe85a41e7aea5d5ee, 0x5fe83d54c8a449af, 0x70ca07909da0b4d8, 0x69c28533408e025d, 0x405943aa68936632, 0x71b7ec654901947c, 0x11186ca89a150df8, 0xd2b51858e4b91fdc, 0x552cd1ae502a351c, 0xc32ce21c1d2fca41, 0x63a86a2ed51d45b3, 0x18d5feb4711d8e03, 0x64cca86b03c203cd, 0x8a2903685d2f7491, 0x32e3964316fa706, 0xd8d1228aaf514973, 0x28949b8945a8391e])).flat = [0x3e1c2f74b87a848, 0x735a1ddf3fb61815, 0x30c456500e52d52b, 0x2907fc8e3b3210ad, 0xa1fdfdbe638f8257, 0x53ef0596d23a2bf1, 0x1caaaf5fac3745a8, 0x734f246a3f01502b, 0x780575f93ee6f0fd, 0xd5ef3e6cba59dcbb, 0xdca519c025a945fb, 0x2b13cc75aaa15b19, 0x69ef15099436f5e, 0xce22a2d6488223ce, 0x4ecbe035ba40b348, 0xe796cf32d13bf361, 0x4f4c15f9008058ef, 0xd4aa7f1493dca23f, 0x593a6c56565ef6be, 0x5b6085e8f8c5a67b, 0xccddd66faac42dfd, 0xb60c0c015eb4af75, 0xa22dfcbb49605ffe, 0xf984076dff56f23b, 0xd278ba82039c0499] := by decide +kernel
theorem two_1_8 : (rnd 8 (ofFlat [0x3e1c2f74b87a848, 0x735a1ddf3fb61815, 0x30c456500e52d52b, 0x2907fc8e3b3210ad, 0xa1fdfdbe638f8257, 0x53ef0596d23a2bf1, 0x1caaaf5fac3745a8, 0x734f246a3f01502b, 0x780575f93ee6f0fd, 0xd5ef3e6cba59dcbb, 0xdca519c025a945fb, 0x2b13cc75aaa15b19, 0x69ef15099436f5e, 0xce22a2d6488223ce, 0x4ecbe035ba40b348, 0xe796cf32d13bf361, 0x4f4c15f9008058ef, 0xd4aa7f1493dca23f, 0x593a6c56565ef6be, 0x5b6085e8f8c5a67b, 0xccddd66faac42dfd, 0xb60c0c015eb4af75, 0xa22dfcbb49605ffe, 0xf984076dff56f23b, 0xd278ba82039c0499])).flat = [0xdbe42240154844ee, 0xe624844913923ca0, 0x1cfae42000b50936, 0xb304adeff4e1a038, 0xd978d783de1d7001, 0xa6824b32edf47855, 0x5c1cbc52a1dafb49, 0x210058bbfef74618, 0x6e61f97a9971bc07, 0xdc6b57507cd32714, 0x673ad603ab3e7af9, 0x5b781e266e4b50e5, 0x10b6115dbb3c6576, 0x5b568cc3755293a8, 0x3e3f02e0319916c, 0xf86039a7c7bf9631, 0xcd5e7cb310857808, 0x7d018e24589783ce, 0xcd635bbe29a9a9e, 0x2c25d03683bc0473, 0xfcb61903607febc8, 0xed0a0ae63396aa3b, 0xa521fe9e9a138b38, 0x9e28705c2a5bc387, 0xd8232b79e39e6261] := by decide +kernel
theorem two_1_9 : (rnd 9 (ofFlat [0xdbe42240154844ee, 0xe624844913923ca0, 0x1cfae42000b50936, 0xb304adeff4e1a038, 0xd978d783de1d7001, 0xa6824b32edf47855, 0x5c1cbc52a1dafb49, 0x210058bbfef74618, 0x6e61f97a9971bc07, 0xdc6b57507cd32714, 0x673ad603ab3e7af9, 0x5b781e266e4b50e5, 0x10b6115dbb3c6576, 0x5b568cc3755293a8, 0x3e3f02e0319916c, 0xf86039a7c7bf9631, 0xcd5e7cb310857808, 0x7d018e24589783ce, 0xcd635bbe29a9a9e, 0x2c25d03683bc0473, 0xfcb61903607febc8, 0xed0a0ae63396aa3b, 0xa521fe9e9a138b38, 0x9e28705c2a5bc387, 0xd8232b79e39e6261])).flat = [0xbf1a0c6228dd7c73, 0x684eaabaedb6ed78, 0x5e6a8941abd6c321, 0xfd7ed85e16fa887f, 0xa2180442a1e4fd7a, 0xc40ca6209b28d23f, 0x147c416966ee2339, 0xb607fb96b7da8769, 0x66d7cb25a92baf7a, 0x791593fadc678563, 0xb0cd410852dca481, 0x2adcc430610b8ff2, 0xb463d5e3a6c59e2d, 0xd91c2cfbebad0f09, 0x8a81d28b2f513bd2, 0x43dcdccd5fbd090c, 0x7006a59d6480c55e, 0x20e4026db4b00e9c, 0x73a7d5c5bf77cbcb, 0xde8f89aa656c4eb0, 0xbd1d69cedbc9b255, 0x2f5f7119d1ca318f, 0xef1cfe3f1d2b4819, 0xcd610bd1ab4d21f1, 0x6746af3a0085535e] := by decide +kernel
theorem two_1_10 : (rnd 10 (ofFlat [0xbf1a0c6228dd7c73, 0x684eaabaedb6ed78, 0x5e6a8941abd6c321, 0xfd7ed85e16fa887f, 0xa2180442a1e4fd7a, 0xc40ca6209b28d23f, 0x147c416966ee2339, 0xb607fb96b7da8769, 0x66d7cb25a92baf7a, 0x791593fadc678563, 0xb0cd410852dca481, 0x2adcc430610b8ff2, 0xb463d5e3a6c59e2d, 0xd91c2cfbebad0f09, 0x8a81d28b2f513bd2, 0x43dcdccd5fbd090c, 0x7006a59d6480c55e, 0x20e4026db4b00e9c, 0x73a7d5c5bf77cbcb, 0xde8f89aa656c4eb0, 0xbd1d69cedbc9b255, 0x2f5f7119d1ca318f, 0xef1cfe3f1d2b4819, 0xcd610bd1ab4d21f1, 0x6746af3a0085535e])).flat = [0xc1798b0e34b4e911, 0x5a36883cca9cda70, 0xcd7e32ab8ffd47ca, 0x3c88d37ced435bfb, 0x560962fe369abe01, 0xf6876881d3c02645, 0xef4425f246ddf1c1, 0x9d7633aecef06802, 0x2d950e5f4a0304aa, 0xca8999ec1c493e0a, 0xd77d847a188c8a3a, 0x9d205afa8366b799, 0x8524515f4f24d1f6, 0xcda42896d5e36c48, 0xf20d390619f0095e, 0xa9e85aeb2dbe72ea, 0x370f4cf3e1a254cb, 0xea3cdc8e2c089de1, 0x3c41f7f21fe97a10, 0x5888389723976d10, 0xbd838e47fc157c9b, 0xc0a04cda0e7a06ea, 0x42c9420c630f6092, 0x633353707983592e, 0xb6b637da4a20e42c] := by decide +kernel
theorem two_1_11 : (rnd 11 (ofFlat [0xc1798b0e34b4e911, 0x5a36883cca9cda70, 0xcd7e32ab8ffd47ca, 0x3c88d37ced435bfb, 0x560962fe369abe01, 0xf6876881d3c02645, 0xef4425f246ddf1c1, 0x9d7633aecef06802, 0x2d950e5f4a0304aa, 0xca8999ec1c493e0a, 0xd77d847a188c8a3a, 0x9d205afa8366b799, 0x8524515f4f24d1f6, 0xcda42896d5e36c48, 0xf20d390619f0095e, 0xa9e85aeb2dbe72ea, 0x370f4cf3e1a254cb, 0xea3cdc8e2c089de1, 0x3c41f7f21fe97a10, 0x5888389723976d10, 0xbd838e47fc157c9b, 0xc0a04cda0e7a06ea, 0x42c9420c630f6092, 0x633353707983592e, 0xb6b637da4a20e42c])).flat = [0xbe08288627df3573, 0x19c43304f179a569, 0x49ff02fab0244439, 0x8d3d5583169a5fb4, 0x1d3869288adbdaf, 0x60bc6d024a13da74, 0x449585610169408a, 0x51f938216e34a24d, 0xc3a9d20a8c406194, 0x15554086746450d0, 0x12d90534c5250b02, 0x4555a761b7e89913, 0xdcd3474fae6637f5, 0x9845526bb4ca2cf2, 0xf1952fbaa1c69b3f, 0xbeb7e5c1eae8dae2, 0x8a9511fe84e73716, 0xddd141b8a5e47619, 0x8f1ed27278b3838a, 0xb0178f3b0e99a14e, 0x40827bb610a46b4b, 0xba30958c5aaf10c6, 0xdbe72b8e82836d3a, 0xabdd701d50d3112d, 0xa5c50cc7838e2d3f] := by decide +kernel
theorem two_1_12 : (rnd 12 (ofFlat [0xbe08288627df3573, 0x19c43304f179a569, 0x49ff02fab0244439, 0x8d3d5583169a5fb4, 0x1d3869288adbdaf, 0x60bc6d024a13da74, 0x449585610169408a, 0x51f938216e34a24d, 0xc3a9d20a8c406194, 0x15554086746450d0, 0x12d90534c5250b02, 0x4555a761b7e89913, 0xdcd3474fae6637f5, 0x9845526bb4ca2cf2, 0xf1952fbaa1c69b3f, 0xbeb7e5c1eae8dae2, 0x8a9511fe84e73716, 0xddd141b8a5e47619, 0x8f1ed27278b3838a, 0xb0178f3b0e99a14e, 0x40827bb610a46b4b, 0xba30958c5aaf10c6, 0xdbe72b8e82836d3a, 0xabdd701d50d3112d, 0xa5c50cc7838e2d3f])).flat = [0x1ceba8bb4406e988, 0xfc963d45bf5aa9fc, 0x2a61f88ab16919c0, 0x20bb92676d56fee0, 0x51b51f2d32cc8a05, 0x5c99ae0f5ac7c9fd, 0x8c78b647f3ddbb68, 0x9ada2445301a7b4f, 0x72ec43a2640a262c, 0x82a81bdce7e270de, 0xdc32c10e3dfec301, 0x7b50bbf759f643a3, 0x90a513747b17cd22, 0xa4d538a3a09e2827, 0xef27dd005ceba4a6, 0xa01e3595bcbea265, 0x8619700e156adbfa, 0xcd5b2d8cb16118ce, 0x1cbe185e92f108ea, 0xfa29fcfb19e7aab5, 0xf5569716901f0b7c, 0xabd54204e6b5903d, 0x68c899330bd7dc2d, 0xa06b283f6a12fb53, 0x3c19f0369e07f0bf] := by decide +kernel
theorem two_1_13 : (rnd 13 (ofFlat [0x1ceba8bb4406e988, 0xfc963d45bf5aa9fc, 0x2a61f88ab16919c0, 0x20bb92676d56fee0, 0x51b51f2d32cc8a05, 0x5c99ae0f5ac7c9fd, 0x8c78b647f3ddbb68, 0x9ada2445301a7b4f, 0x72ec43a2640a262c, 0x82a81bdce7e270de, 0xdc32c10e3dfec301, 0x7b50bbf759f643a3, 0x90a513747b17cd22, 0xa4d538a3a09e2827, 0xef27dd005ceba4a6, 0xa01e3595bcbea265, 0x8619700e156adbfa, 0xcd5b2d8cb16118ce, 0x1cbe185e92f108ea, 0xfa29fcfb19e7aab5, 0xf5569716901f0b7c, 0xabd54204e6b5903d, 0x68c899330bd7dc2d, 0xa06b283f6a12fb53, 0x3c19f0369e07f0bf])).flat = [0xa6874969c277d0b5, 0x5229c8ca8a36e3de, 0x460b8111559c30f9, 0x265cc5556f5fe4d1, 0xe8a87080b9cd9ed7, 0xe77ce9d595182432, 0x829bdf7e7d35cdb8, 0x65e22b57f5bf9cb6, 0x88fd00456877f75a, 0x33c0b3122982f2cf, 0xc3115c6a62e27309, 0x41e2af5dcf8ce2ea, 0xaee84d1f0c2a9912, 0xee79e37fa7d5c3a, 0x1fb16c8df6b48a23, 0xc3e691bd74479246, 0xddf3662e2777ddcb, 0xb8e21a66724fcefd, 0x4f98f2c2a6042fa1, 0xead8f5fbc006e611, 0x1f37178c6d0273ec, 0x42a7da6d2e94cd54, 0x5b01974bb2532989, 0x8f07f627bc8becbf, 0x679fec94a0203b37] := by decide +kernel
theorem two_1_14 : (rnd 14 (ofFlat [0xa6874969c277d0b5, 0x5229c8ca8a36e3de, 0x460b8111559c30f9, 0x265cc5556f5fe4d1, 0xe8a87080b9cd9ed7, 0xe77ce9d595182432, 0x829bdf7e7d35cdb8, 0x65e22b57f5bf9cb6, 0x88fd00456877f75a, 0x33c0b3122982f2cf, 0xc3115c6a62e27309, 0x41e2af5dcf8ce2ea, 0xaee84d1f0c2a9912, 0xee79e37fa7d5c3a, 0x1fb16c8df6b48a23, 0xc3e691bd74479246, 0xddf3662e2777ddcb, 0xb8e21a66724fcefd, 0x4f98f2c2a6042fa1, 0xead8f5fbc006e611, 0x1f37178c6d0273ec, 0x42a7da6d2e94cd54, 0x5b01974bb2532989, 0x8f07f627bc8becbf, 0x679fec94a0203b37])).flat = [0xe913ed4516d35405, 0x60e4e467475150f5, 0x8bc4f9807f11a197, 0x68c90534565519fc, 0x114a0788dff026dd, 0x34f9067c38893d38, 0x9229dd0aaa8ecc93, 0xa43f5e7c37a6c41c, 0x839eabc1bd2c1a56, 0x13969d0f8b979f59, 0xe1bf6c7affca4240, 0xa56c4c0cd596f8ec, 0xc797a5f1d0bf79b1, 0x76533efe7004b767, 0xb6a0361bc349162c, 0x439369511a22ed4, 0x116af6992ffd67bd, 0xd857505d0e877748, 0x10a8e04a05f8213e, 0xbdb098fa9dd86543, 0x792a2cef2db27de9, 0x24b8080f0898de29, 0x7e2462e286e34c2f, 0xa42cf528625c7344, 0x81f1408b29d8bc8b] := by decide +kernel
theorem two_1_15 : (rnd 15 (ofFlat [0xe913ed4516d35405, 0x60e4e467475150f5, 0x8bc4f9807f11a197, 0x68c90534565519fc, 0x114a0788dff026dd, 0x34f9067c38893d38, 0x9229dd0aaa8ecc93, 0xa43f5e7c37a6c41c, 0x839eabc1bd2c1a56, 0x13969d0f8b979f59, 0xe1bf6c7affca4240, 0xa56c4c0cd596f8ec, 0xc797a5f1d0bf79b1, 0x76533efe7004b767, 0xb6a0361bc349162c, 0x439369511a22ed4, 0x116af6992ffd67bd, 0xd857505d0e877748, 0x10a8e04a05f8213e, 0xbdb098fa9dd86543, 0x792a2cef2db27de9, 0x24b8080f0898de29, 0x7e2462e286e34c2f, 0xa42cf528625c7344, 0x81f1408b29d8bc8b])).flat = [0x25818544228691da, 0x4ba6e4fd465c267b, 0x18ea0d370380aba9, 0xa443f55b554949e7, 0x75c253317abe6c9b, 0x8a266621026ebd80, 0xa15a44e8d6fb05a2, 0x2aea7fb799eb736e, 0xaa2cf8844238d810, 0xc8b25cb0588e8bb9, 0x573018bca412a8d5, 0xc25456364f560b35, 0x2edc6bfd30d4ee0e, 0xfd2fd0db11717c08, 0x3ff705168cb1c4e1, 0x97c109a76cda35c4, 0xf7d3a64b82b273e0, 0x42834d437b1851c8, 0xefbdf48f265e65d6, 0x90d45f6cc2102e8a, 0xe6ad9e2fa463aceb, 0x46abeda854dea261, 0xc02ccc4c7c403b4, 0xa3691eb1e6cb2029, 0xe641b0db4797a14f] := by decide +kernel
theorem two_1_16 : (rnd 16 (ofFlat [0x25818544228691da, 0x4ba6e4fd465c267b, 0x18ea0d370380aba9, 0xa443f55b554949e7, 0x75c253317abe6c9b, 0x8a266621026ebd80, 0xa15a44e8d6fb05a2, 0x2aea7fb799eb736e, 0xaa2cf8844238d810, 0xc8b25cb0588e8bb9, 0x573018bca412a8d5, 0xc25456364f560b35, 0x2edc6bfd30d4ee0e, 0xfd2fd0db11717c08, 0x3ff705168cb1c4e1, 0x97c109a76cda35c4, 0xf7d3a64b82b273e0, 0x42834d437b1851c8, 0xefbdf48f265e65d6, 0x90d45f6cc2102e8a, 0xe6ad9e2fa463aceb, 0x46abeda854dea261, 0xc02ccc4c7c403b4, 0xa3691eb1e6cb2029, 0xe641b0db4797a14f])).flat = [0x701b0de41ef94b85, 0x299248cba99c6373, 0x36b162125c347ab, 0xe68edf8f3ff2f5b3, 0xdad44660ad8782e8, 0x954e6771919a0a3a, 0x426122c391860109, 0x8d063048e17db15d, 0xf4e56f43aefc7662, 0x3fdf4b6e266a105a, 0xfcd4cb06d3bca66, 0x30bbc09b5447c08b, 0xc2ac3fe2a8ceab44, 0x7b71f61c069eaa3e, 0x21c717cda9c84e9, 0x192527d5d0ed7249, 0x2a6f0694e95f8812, 0x402e4cb74cdb5abc, 0x875f1165a81b52dc, 0x3503014c02b42d0e, 0x7ea767a86139c4b8, 0xdadc08f53a0b23f2, 0x7003105ddab4976d, 0x9ed60520c5ae0eb9, 0xafa6c861cf6df1ef] := by decide +kernel
theorem two_1_17 : (rnd 17 (ofFlat [0x701b0de41ef94b85, 0x299248cba99c6373, 0x36b162125c347ab, 0xe68edf8f3ff2f5b3, 0xdad44660ad8782e8, 0x954e6771919a0a3a, 0x426122c391860109, 0x8d063048e17db15d, 0xf4e56f43aefc7662, 0x3fdf4b6e266a105a, 0xfcd4cb06d3bca66, 0x30bbc09b5447c08b, 0xc2ac3fe2a8ceab44, 0x7b71f61c069eaa3e, 0x21c717cda9c84e9, 0x192527d5d0ed7249, 0x2a6f0694e95f8812, 0x402e4cb74cdb5abc, 0x875f1165a81b52dc, 0x3503014c02b42d0e, 0x7ea767a86139c4b8, 0xdadc08f53a0b23f2, 0x7003105ddab4976d, 0x9ed60520c5ae0eb9, 0xafa6c861cf6df1ef])).flat = [0xf05efd5f7d53cf80, 0xc4eb11c24ce583a0, 0x6ada08578f7cfe1c, 0xdd23bbe0392298db, 0x541126b43f293123, 0x378bcf0e4218ff75, 0xc60dbef079543f89, 0x2905c0747e3691d9, 0x8a3f86dff941f8dd, 0x476ff2412a3bee25, 0xbba2c9b44c37dcb8, 0xd6d82c6b0796d27d, 0xcdcba75e237cf333, 0x363e29ff8578796f, 0x28062a46f305518b, 0xeb35d5ad9ec79fc2, 0x300a2a3bfcb1bcdf, 0xecb85fed7177f513, 0xa733838d5ddd9bb9, 0xbe1175389e3ec03e, 0xd2298cea0ae10da9, 0x95a99662ceb68b1d, 0xc0ef88ac6bb78cd1, 0xad51a422c8b6df6d, 0x90eba3ba32f62862] := by decide +kernel
theorem two_1_18 : (rnd 18 (ofFlat [0xf05efd5f7d53cf80, 0xc4eb11c24ce583a0, 0x6ada08578f7cfe1c, 0xdd23bbe0392298db, 0x541126b43f293123, 0x378bcf0e4218ff75, 0xc60dbef079543f89, 0x2905c0747e3691d9, 0x8a3f86dff941f8dd, 0x476ff2412a3bee25, 0xbba2c9b44c37dcb8, 0xd6d82c6b0796d27d, 0xcdcba75e237cf333, 0x363e29ff8578796f, 0x28062a46f305518b, 0xeb35d5ad9ec79fc2, 0x300a2a3bfcb1bcdf, 0xecb85fed7177f513, 0xa733838d5ddd9bb9, 0xbe1175389e3ec03e, 0xd2298cea0ae10da9, 0x95a99662ceb68b1d, 0xc0ef88ac6bb78cd1, 0xad51a422c8b6df6d, 0x90eba3ba32f62862])).flat = [0xc6e4386e96f89676, 0x22dc6cde56c3727e, 0xe58af25e35f41c4f, 0x78e2b2d4706dccad, 0xd7c4f1ca2667cdd, 0xce021b0cd5464519, 0xc7b14de037567ec8, 0x4438a42a1522a6ad, 0x8312a73c5b1c1178, 0xac4f1ede5166c747, 0xcb9f863236c65d5f, 0x22578f7b59dc13f, 0x2adc61d8f26ee383, 0x6019480eec5a2c7, 0x6f4d693ee8481267, 0xa2872dc6112c7a88, 0x88738097195eb772, 0xabded7c0f1989179, 0x831200590ad7a5d2, 0xf35496447e847f87, 0xf309d52283c3352a, 0x3585fe2c53d30d60, 0xa1f93da028aef234, 0x92f4ba3b10ec3b9c, 0x55953af3a014fd8a] := by decide +kernel
theorem two_1_19 : (rnd 19 (ofFlat [0xc6e4386e96f89676, 0x22dc6cde56c3727e, 0xe58af25e35f41c4f, 0x78e2b2d4706dccad, 0xd7c4f1ca2667cdd, 0xce021b0cd5464519, 0xc7b14de037567ec8, 0x4438a42a1522a6ad, 0x8312a73c5b1c1178, 0xac4f1ede5166c747, 0xcb9f863236c65d5f, 0x22578f7b59dc13f, 0x2adc61d8f26ee383, 0x6019480eec5a2c7, 0x6f4d693ee8481267, 0xa2872dc6112c7a88, 0x88738097195eb772, 0xabded7c0f1989179, 0x831200590ad7a5d2, 0xf35496447e847f87, 0xf309d52283c3352a, 0x3585fe2c53d30d60, 0xa1f93da028aef234, 0x92f4ba3b10ec3b9c, 0x55953af3a014fd8a])).flat = [0xb922eac2cf2b6038, 0xdcf0654458e6cc7d, 0xac112d4645a17d9e, 0xb1529ff94bd8743e, 0xea34391037686b56, 0xef27da92328dc0f8, 0xebc11f6adfb56a5b, 0xf6cae87e71844c08, 0x9b573104fe5e3922, 0xc4bd29f0a04493e3, 0x71b1b1775c398369, 0xa33f532d0e1573c9, 0xa4fc3f9fd50c6fc3, 0xec5636ce2c1cfa79, 0xb43dae4fe5b4dbb8, 0xfba550f167e7ee32, 0x98489df03e301e84, 0x16fb6f5a39439019, 0xee47d8b11409b88e, 0x508acf4f7888c256, 0x7dd6a59c0d0b849b, 0xd32d0285b267c03d, 0x76b86f535e748cd0, 0xb53e1432c9f7d982, 0x95ad7223bf86f38a] := by decide +kernel
theorem two_1_20 : (rnd 20 (ofFlat [0xb922eac2cf2b6038, 0xdcf0654458e6cc7d, 0xac112d4645a17d9e, 0xb1529ff94bd8743e, 0xea34391037686b56, 0xef27da92328dc0f8, 0xebc11f6adfb56a5b, 0xf6cae87e71844c08, 0x9b573104fe5e3922, 0xc4bd29f0a04493e3, 0x71b1b1775c398369, 0xa33f532d0e1573c9, 0xa4fc3f9fd50c6fc3, 0xec5636ce2c1cfa79, 0xb43dae4fe5b4dbb8, 0xfba550f167e7ee32, 0x98489df03e301e84, 0x16fb6f5a39439019, 0xee47d8b11409b88e, 0x508acf4f7888c256, 0x7dd6a59c0d0b849b, 0xd32d0285b267c03d, 0x76b86f535e748cd0, 0xb53e1432c9f7d982, 0x95ad7223bf86f38a])).flat = [0xdc6695eff09fee85, 0xbb7b221d1ffe71af, 0xe6c2aa0e10e45884, 0xbb7923d7a61e84a0, 0xd181b941a4980349, 0x88c673b20d4d1e09, 0x25062c45bb21669a, 0x878ebcc7240d38ec, 0xf259a198c29cfd2a, 0xe761e245cac524fa, 0x817fcda7b7d2081b, 0xdd0cf8bf173ef54c, 0xcf0edd6e8e8269d6, 0xaf426aab36c63e0e, 0x56ced8e603b6910f, 0xab6ff25cf9600409, 0xebba5808773b62da, 0x43d8cf856adf44e4, 0x3b0d5b5d7b4e79e3, 0xec0474e91d3f9e6e, 0x43496c857a1e7796, 0x2acd1ee694ff3e8f, 0x8345ea7d5809351a, 0x65951ca1e061fb36, 0x349a0c2bd021b038] := by decide +kernel
theorem two_1_21 : (rnd 21 (ofFlat [0xdc6695eff09fee85, 0xbb7b221d1ffe71af, 0xe6c2aa0e10e45884, 0xbb7923d7a61e84a0, 0xd181b941a4980349, 0x88c673b20d4d1e09, 0x25062c45bb21669a, 0x878ebcc7240d38ec, 0xf259a198c29cfd2a, 0xe761e245cac524fa, 0x817fcda7b7d2081b, 0xdd0cf8bf173ef54c, 0xcf0edd6e8e8269d6, 0xaf426aab36c63e0e, 0x56ced8e603b6910f, 0xab6ff25cf9600409, 0xebba5808773b62da, 0x43d8cf856adf44e4, 0x3b0d5b5d7b4e79e3, 0xec0474e91d3f9e6e, 0x43496c857a1e7796, 0x2acd1ee694ff3e8f, 0x8345ea7d5809351a, 0x65951ca1e061fb36, 0x349a0c2bd021b038])).flat = [0x62f1cf7e19a3aaf7, 0x39c52e540219923a, 0x10e3e90e3980dbe7, 0x68f44f162ee5947a, 0xe35d02eddc82e9e4, 0x18e62c53da0952fd, 0x7081546d7fa2d624, 0xe206342d8a2a0551, 0xf3ca4d2cce32866b, 0xcf1fd1a492ed6430, 0xd6d197058fd4f46e, 0x1b5429f937cf1fd7, 0xb9b3686f73f32835, 0x2d93a3472a2d2f23, 0xd7d9c27a7c94f742, 0xd7b8729ce8955315, 0x4fa5fba157ba4000, 0x964a43ced333757, 0xc45e8096f8a19855, 0xab7da227b803bfb2, 0xc54d550f940f83a6, 0xf236a3f9c755e409, 0x120dae8af0a3dca0, 0x7881742b20d256f3, 0x309f7f3970ed7047] := by decide +kernel
theorem two_1_22 : (rnd 22 (ofFlat [0x62f1cf7e19a3aaf7, 0x39c52e540219923a, 0x10e3e90e3980dbe7, 0x68f44f162ee5947a, 0xe35d02eddc82e9e4, 0x18e62c53da0952fd, 0x7081546d7fa2d624, 0xe206342d8a2a0551, 0xf3ca4d2cce32866b, 0xcf1fd1a492ed6430, 0xd6d197058fd4f46e, 0x1b5429f937cf1fd7, 0xb9b3686f73f32835, 0x2d93a3472a2d2f23, 0xd7d9c27a7c94f742, 0xd7b8729ce8955315, 0x4fa5fba157ba4000, 0x964a43ced333757, 0xc45e8096f8a19855, 0xab7da227b803bfb2, 0xc54d550f940f83a6, 0xf236a3f9c755e409, 0x120dae8af0a3dca0, 0x7881742b20d256f3, 0x309f7f3970ed7047])).flat = [0x45085c70f6c06036, 0x6579b6858f2a3d59, 0xd8872a94a456bdc1, 0xfa763c7decea7241, 0xe1626267cf9d0eea, 0x3c201e308887e2ca, 0xa1ab90e3d8f39b2a, 0x445a610c46b5f463, 0xf497d411b4ff7d9b, 0x1c23411021dd68b9, 0xcb10969511a67903, 0x79350c1728026e92, 0xdc08f285077adf0b, 0x2e4091cb513b89dd, 0x282a65ff4d10ee8e, 0xfd784b1e7acacf86, 0xd0b180f769872df8, 0x21fe9af0efe7a034, 0x1e041951e37db683, 0x4369cdb38b1c0058, 0xf8af2e85118a36c4, 0xe890c1344fb0e930, 0x7b96acdcd6146e97, 0x2432eed10e51314f, 0xb5fabfed76fdc0e3] := by decide +kernel
theorem two_1_23 : (rnd 23 (ofFlat [0x45085c70f6c06036, 0x6579b6858f2a3d59, 0xd8872a94a456bdc1, 0xfa763c7decea7241, 0xe1626267cf9d0eea, 0x3c201e308887e2ca, 0xa1ab90e3d8f39b2a, 0x445a610c46b5f463, 0xf497d411b4ff7d9b, 0x1c23411021dd68b9, 0xcb10969511a67903, 0x79350c1728026e92, 0xdc08f285077adf0b, 0x2e4091cb513b89dd, 0x282a65ff4d10ee8e, 0xfd784b1e7acacf86, 0xd0b180f769872df8, 0x21fe9af0efe7a034, 0x1e041951e37db683, 0x4369cdb38b1c0058, 0xf8af2e85118a36c4, 0xe890c1344fb0e930, 0x7b96acdcd6146e97, 0x2432eed10e51314f, 0xb5fabfed76fdc0e3])).flat = [0x79793e8697aab0bf, 0xb887ebb337ccf43, 0x92c003273d3f54b4, 0x90b857afc201693c, 0x9655a6de91403664, 0x9dd0b815c1af4ab, 0x9a74cb96c11484b2, 0x1326781fee7dcdb6, 0x537a2accf7fb6b34, 0xcb4f3b32a87b8e35, 0x4ffa71d2463f1723, 0x2dc4b4119f7e172d, 0xb8be950bb52519a7, 0xea210836383cf4b6, 0x14da7fa80a87a373, 0x611228524e9173be, 0x2ee93af745cad827, 0x8ff5aa59d75afe9e, 0x96803f554745cc8d, 0x979078a94d21d1f9, 0x9a3a857cfc6bac9f, 0xe9de8d994e7ba2f5, 0x8075876b77408410, 0x553560b2193bd9b5, 0x8cd5d066cd153d25] := by decide +kernel

theorem two_perm1 {A : St} (h : A.flat = [0x460dceb859bca6a0, 0xbc1d3086a4171e54, 0x667324211316e125, 0xfa603475ec46feb2, 0xbe64d475aba8c9c3, 0x5112c3fb3318ed46, 0x474a6d966ff1f367, 0xf12af66bf8b15536, 0xa6a7a3c4fb6ac06f, 0xb3b1d19d16784d8f, 0xdfd0fba7398be6a5, 0x3e4d8506074c0b20, 0x3a497beedf7f7688, 0x760c6e1a9bccb2e4, 0x96e1aa9cced04e74, 0xbd2cdeed084d065f, 0xeaa4e537e9afeea1, 0xa589e42e64344449, 0x788acfc004cafa2c, 0x67b7c69e493fd2c0, 0xd08c0c07a6228e0c, 0x786c165daee1060, 0x7d75a338406c6735, 0x683dec7172a2d9c8, 0x9513375f3f9b8919]) : EqSt (keccakF A) (ofFlat [0x79793e8697aab0bf, 0xb887ebb337ccf43, 0x92c003273d3f54b4, 0x90b857afc201693c, 0x9655a6de91403664, 0x9dd0b815c1af4ab, 0x9a74cb96c11484b2, 0x1326781fee7dcdb6, 0x537a2accf7fb6b34, 0xcb4f3b32a87b8e35, 0x4ffa71d2463f1723, 0x2dc4b4119f7e172d, 0xb8be950bb52519a7, 0xea210836383cf4b6, 0x14da7fa80a87a373, 0x611228524e9173be, 0x2ee93af745cad827, 0x8ff5aa59d75afe9e, 0x96803f554745cc8d, 0x979078a94d21d1f9, 0x9a3a857cfc6bac9f, 0xe9de8d994e7ba2f5, 0x8075876b77408410, 0x553560b2193bd9b5, 0x8cd5d066cd153d25]) :=
  ((((((((((((((((((((((((eqSt_of_flat h).step two_1_0).step two_1_1).step two_1_2).step two_1_3).step two_1_4).step two_1_5).step two_1_6).step two_1_7).step two_1_8).step two_1_9).step two_1_10).step two_1_11).step two_1_12).step two_1_13).step two_1_14).step two_1_15).step two_1_16).step two_1_17).step two_1_18).step two_1_19).step two_1_20).step two_1_21).step two_1_22).step two_1_23

/-- The 200 bytes 0, 1, …, 199: two blocks. -/
theorem keccak256_two : keccak256 ((List.range 200).map fun i => BitVec.ofNat 8 i) = [0xbf, 0xb0, 0xaa, 0x97, 0x86, 0x3e, 0x79, 0x79, 0x43, 0xcf, 0x7c, 0x33, 0xbb, 0x7e, 0x88, 0x0b, 0xb4, 0x54, 0x3f, 0x3d, 0x27, 0x03, 0xc0, 0x92, 0x3c, 0x69, 0x01, 0xc2, 0xaf, 0x57, 0xb8, 0x90] := by
  have h1 : EqSt (absorbed (pad ((List.range 200).map fun i => BitVec.ofNat 8 i)) 1) (ofFlat [0xc9834334d2362f28, 0x2b8ba51237858fc4, 0xf9edb9bd888c78bd, 0x5dc691d14fe45f12, 0x11ca79d90002606b, 0xe6a4764f80aa5cf6, 0xf8f4d02ad44b4adf, 0x36ec33af3b7394f6, 0xa6a7a3c4fb6ac06e, 0xb3b1d19d16784d8f, 0xdfd0fba7398be6a5, 0x3e4d8506074c0b20, 0x3a497beedf7f7688, 0x760c6e1a9bccb2e4, 0x96e1aa9cced04e74, 0xbd2cdeed084d065f, 0x6aa4e537e9afeea1, 0xa589e42e64344449, 0x788acfc004cafa2c, 0x67b7c69e493fd2c0, 0xd08c0c07a6228e0c, 0x786c165daee1060, 0x7d75a338406c6735, 0x683dec7172a2d9c8, 0x9513375f3f9b8919]) :=
    two_perm0 (A := fun x y => if x + 5 * y < 17 then (fun _ _ => 0 : St) x y ^^^ leLane (pad ((List.range 200).map fun i => BitVec.ofNat 8 i)) (17 * 0 + (x + 5 * y)) else (fun _ _ => 0 : St) x y) (by decide +kernel)
  have h2 : St.flat (fun x y => if x + 5 * y < 17 then ofFlat [0xc9834334d2362f28, 0x2b8ba51237858fc4, 0xf9edb9bd888c78bd, 0x5dc691d14fe45f12, 0x11ca79d90002606b, 0xe6a4764f80aa5cf6, 0xf8f4d02ad44b4adf, 0x36ec33af3b7394f6, 0xa6a7a3c4fb6ac06e, 0xb3b1d19d16784d8f, 0xdfd0fba7398be6a5, 0x3e4d8506074c0b20, 0x3a497beedf7f7688, 0x760c6e1a9bccb2e4, 0x96e1aa9cced04e74, 0xbd2cdeed084d065f, 0x6aa4e537e9afeea1, 0xa589e42e64344449, 0x788acfc004cafa2c, 0x67b7c69e493fd2c0, 0xd08c0c07a6228e0c, 0x786c165daee1060, 0x7d75a338406c6735, 0x683dec7172a2d9c8, 0x9513375f3f9b8919] x y ^^^ leLane (pad ((List.range 200).map fun i => BitVec.ofNat 8 i)) (17 * 1 + (x + 5 * y)) else ofFlat [0xc9834334d2362f28, 0x2b8ba51237858fc4, 0xf9edb9bd888c78bd, 0x5dc691d14fe45f12, 0x11ca79d90002606b, 0xe6a4764f80aa5cf6, 0xf8f4d02ad44b4adf, 0x36ec33af3b7394f6, 0xa6a7a3c4fb6ac06e, 0xb3b1d19d16784d8f, 0xdfd0fba7398be6a5, 0x3e4d8506074c0b20, 0x3a497beedf7f7688, 0x760c6e1a9bccb2e4, 0x96e1aa9cced04e74, 0xbd2cdeed084d065f, 0x6aa4e537e9afeea1, 0xa589e42e64344449, 0x788acfc004cafa2c, 0x67b7c69e493fd2c0, 0xd08c0c07a6228e0c, 0x786c165daee1060, 0x7d75a338406c6735, 0x683dec7172a2d9c8, 0x9513375f3f9b8919] x y) = [0x460dceb859bca6a0, 0xbc1d3086a4171e54, 0x667324211316e125, 0xfa603475ec46feb2, 0xbe64d475aba8c9c3, 0x5112c3fb3318ed46, 0x474a6d966ff1f367, 0xf12af66bf8b15536, 0xa6a7a3c4fb6ac06f, 0xb3b1d19d16784d8f, 0xdfd0fba7398be6a5, 0x3e4d8506074c0b20, 0x3a497beedf7f7688, 0x760c6e1a9bccb2e4, 0x96e1aa9cced04e74, 0xbd2cdeed084d065f, 0xeaa4e537e9afeea1, 0xa589e42e64344449, 0x788acfc004cafa2c, 0x67b7c69e493fd2c0, 0xd08c0c07a6228e0c, 0x786c165daee1060, 0x7d75a338406c6735, 0x683dec7172a2d9c8, 0x9513375f3f9b8919] := by decide +kernel
  refine digest (l := [0x79793e8697aab0bf, 0xb887ebb337ccf43, 0x92c003273d3f54b4, 0x90b857afc201693c, 0x9655a6de91403664, 0x9dd0b815c1af4ab, 0x9a74cb96c11484b2, 0x1326781fee7dcdb6, 0x537a2accf7fb6b34, 0xcb4f3b32a87b8e35, 0x4ffa71d2463f1723, 0x2dc4b4119f7e172d, 0xb8be950bb52519a7, 0xea210836383cf4b6, 0x14da7fa80a87a373, 0x611228524e9173be, 0x2ee93af745cad827, 0x8ff5aa59d75afe9e, 0x96803f554745cc8d, 0x979078a94d21d1f9, 0x9a3a857cfc6bac9f, 0xe9de8d994e7ba2f5, 0x8075876b77408410, 0x553560b2193bd9b5, 0x8cd5d066cd153d25]) (n := 2) (by decide +kernel) ?_ (by decide +kernel)
  show EqSt (keccakF fun x y => if x + 5 * y < 17 then absorbed (pad ((List.range 200).map fun i => BitVec.ofNat 8 i)) 1 x y ^^^ leLane (pad ((List.range 200).map fun i => BitVec.ofNat 8 i)) (17 * 1 + (x + 5 * y)) else absorbed (pad ((List.range 200).map fun i => BitVec.ofNat 8 i)) 1 x y) _
  refine two_perm1 ?_
  rw [← h2]
  unfold St.flat
  refine List.map_congr_left fun i hi => ?_
  have hi := List.mem_range.1 hi
  simp only [h1 (i % 5) (i / 5) (by omega) (by omega)]

end H2.Kec
