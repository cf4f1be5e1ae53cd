import Verif.Kec.Witness
import Mathlib.Data.List.GetD

/-!
# Digits of the values of the witness
-/

set_option autoImplicit false
namespace H2.Kec

/-! ### Regions -/

theorem rget_of_mem {g : Region} (hn : (g.map (·.1)).Nodup) {c : Cell} {v : ℕ} (hm : (c, v) ∈ g) : rget g c = v := by
  have key : ∀ l : Region, (l.map (·.1)).Nodup → (c, v) ∈ l → (l.find? fun e => e.1 == c) = some (c, v) := by
    intro l
    induction l with
    | nil => intro _ h; simp at h
    | cons e l ih =>
      intro hn hm
      rw [List.map_cons, List.nodup_cons] at hn
      rw [List.find?_cons]
      rcases List.mem_cons.mp hm with rfl | hm
      · simp
      · have : e.1 ≠ c := by
          rintro rfl
          exact hn.1 (List.mem_map.mpr ⟨_, hm, rfl⟩)
        simp only [beq_eq_false_iff_ne.mpr this]
        exact ih hn.2 hm
  unfold rget
  rw [key g.reverse (by rw [List.map_reverse]; exact List.nodup_reverse.mpr hn) (by simpa using hm)]
  rfl

theorem rget_of_not {g : Region} {c : Cell} (hm : c ∉ g.map (·.1)) : rget g c = 0 := by
  unfold rget
  rw [List.find?_eq_none.mpr]
  · rfl
  · intro e he h
    exact hm (List.mem_map.mpr ⟨e, by simpa using he, by simpa using h⟩)

theorem zip_keys (cells : List Cell) (vs : List ℕ) : ((cells.zip vs).map (·.1)).Sublist cells := by
  induction cells generalizing vs with
  | nil => simp
  | cons c cells ih => cases vs with
    | nil => simp
    | cons v vs => simpa using ih vs

/-- The values of cells that are assigned one by one. -/
theorem rget_zip {g : Region} (hn : (g.map (·.1)).Nodup) {cells : List Cell} {vs : List ℕ} (hl : cells.length = vs.length)
    (hs : ∀ e ∈ cells.zip vs, e ∈ g) : cells.map (rget g) = vs := by
  refine List.ext_getElem (by simp [hl]) fun i h1 h2 => ?_
  rw [List.getElem_map]
  refine rget_of_mem hn (hs _ ?_)
  rw [List.mem_iff_getElem]
  exact ⟨i, by simp at h1 ⊢; omega, by simp⟩

theorem rget_put {g : Region} (hn : (g.map (·.1)).Nodup) {cells : List Cell} {vs : List (ℕ × ℕ)} (hl : cells.length = vs.length)
    (hs : ∀ e ∈ put cells vs, e ∈ g) : cells.map (rget g) = vs.map (·.2) := rget_zip hn (by simp [hl]) hs

/-! ### Packed digits -/

theorem packL_append (a b : List ℕ) : packL (a ++ b) = packL a + packL b * 8 ^ a.length := by
  induction a with
  | nil => simp [packL]
  | cons d a ih => rw [List.cons_append, packL, packL, ih, List.length_cons, pow_succ]; ring

theorem packL_lt {l : List ℕ} (h : ∀ d ∈ l, d < 8) : packL l < 8 ^ l.length := by
  induction l with
  | nil => simp [packL]
  | cons d l ih =>
    rw [packL, List.length_cons, pow_succ]
    have := ih fun d hd => h d (by simp [hd])
    have := h d (by simp)
    omega

theorem packL_dig {x n : ℕ} (hx : x < 8 ^ n) : packL ((List.range n).map (dig x)) = x := by
  refine eq_of_dig fun j => ?_
  rw [dig_packL _ (by
    intro d hd
    obtain ⟨i, _, rfl⟩ := List.mem_map.mp hd
    exact dig_lt _ _)]
  by_cases hj : j < n
  · simp [List.getD_eq_getElem?_getD, hj]
  · rw [getD_ge (by simp; omega), dig_of_lt hx (by omega)]

/-- Parts given by the positions of their digits. -/
def enc (parts : List (List ℕ)) (d : ℕ → ℕ) : List (ℕ × ℕ) := parts.map fun q => (q.length, packL (q.map d))

theorem decN_enc (parts : List (List ℕ)) (d : ℕ → ℕ) : decN (enc parts d) = packL (parts.flatten.map d) := by
  induction parts with
  | nil => rfl
  | cons q l ih =>
    rw [enc, List.map_cons, decN_cons, List.flatten_cons, List.map_append, packL_append, List.length_map, ← ih]
    exact Nat.add_comm _ _

theorem unpack_getD (x i : ℕ) : (unpackN x).getD i 0 = if i < 64 then dig x i else 0 := by
  unfold unpackN
  split
  · rename_i h; simp [List.getD_eq_getElem?_getD, h]
  · rename_i h; exact getD_ge (by simp; omega)

theorem unpack_getD_lt {x : ℕ} (hx : x < 8 ^ 64) (i : ℕ) : (unpackN x).getD i 0 = dig x i := by
  rw [unpack_getD]
  split
  · rfl
  · rw [dig_of_lt hx (by omega)]

theorem packPart_eq {x : ℕ} (hx : x < 8 ^ 64) (q : List ℕ) : packPart (unpackN x) q = packL (q.map (dig x)) := by
  unfold packPart
  congr 1
  exact List.map_congr_left fun i _ => unpack_getD_lt hx i

theorem splitV_eq {x : ℕ} (hx : x < 8 ^ 64) (ps rot : ℕ) : splitV ps rot x = enc (wordParts ps rot false) (dig x) := by
  unfold splitV enc
  exact List.map_congr_left fun q _ => by rw [packPart_eq hx]

/-- A part with digits at most `B`. -/
structure DP (B : ℕ) (e : ℕ × ℕ) : Prop where
  lt : e.2 < 8 ^ e.1
  le : ∀ j, dig e.2 j ≤ B

theorem DP_packL {B : ℕ} (hB : B < 8) {l : List ℕ} (h : ∀ d ∈ l, d ≤ B) : DP B (l.length, packL l) := by
  have h8 : ∀ d ∈ l, d < 8 := fun d hd => lt_of_le_of_lt (h d hd) hB
  refine ⟨packL_lt h8, fun j => ?_⟩
  rw [dig_packL _ h8]
  by_cases hj : j < l.length
  · rw [List.getD_eq_getElem _ _ hj]; exact h _ (List.getElem_mem hj)
  · rw [getD_ge (by omega)]; omega

theorem dig_trV {f : ℕ → ℕ} (hf : ∀ d, d < 8 → f d < 8) {e : ℕ × ℕ} (he : e.1 ≤ 64) (j : ℕ) :
    dig (trV f e).2 j = if j < e.1 then f (dig e.2 j) else 0 := by
  unfold trV
  rw [dig_packL _ (by
    intro d hd
    obtain ⟨i, hi, rfl⟩ := List.mem_map.mp hd
    obtain ⟨q, _, rfl⟩ := List.mem_map.mp (List.mem_of_mem_take hi)
    exact hf _ (dig_lt _ _))]
  split
  · rename_i hj
    have h64 : j < 64 := by omega
    simp [List.getD_eq_getElem?_getD, unpackN, List.getElem?_take, hj, h64]
  · rename_i hj
    exact getD_ge (by simp; omega)

theorem trV_lt {f : ℕ → ℕ} (hf : ∀ d, d < 8 → f d < 8) {e : ℕ × ℕ} (he : e.1 ≤ 64) : (trV f e).2 < 8 ^ e.1 :=
  lt_of_dig fun j hj => by rw [dig_trV hf he, if_neg (by omega)]

theorem trV_fst (f : ℕ → ℕ) (e : ℕ × ℕ) : (trV f e).1 = e.1 := rfl

theorem mod2_lt : ∀ d, d < 8 → d % 2 < 8 := fun d _ => by omega

theorem trV_par {B : ℕ} {e : ℕ × ℕ} (he : DP B e) (h64 : e.1 ≤ 64) (j : ℕ) : dig (trV (· % 2) e).2 j = dig e.2 j % 2 := by
  rw [dig_trV mod2_lt h64]
  split
  · rfl
  · rw [dig_of_lt he.lt (by omega)]

theorem trV_DP {B : ℕ} {e : ℕ × ℕ} (he : DP B e) (h64 : e.1 ≤ 64) : DP 1 (trV (· % 2) e) :=
  ⟨trV_lt mod2_lt h64, fun j => by rw [trV_par he h64]; omega⟩

/-- The parities of parts. -/
theorem trV_enc {parts : List (List ℕ)} {d : ℕ → ℕ} (hd : ∀ i, d i < 8) (h64 : ∀ q ∈ parts, q.length ≤ 64) :
    (enc parts d).map (trV (· % 2)) = enc parts fun i => d i % 2 := by
  unfold enc
  rw [List.map_map]
  refine List.map_congr_left fun q hq => Prod.ext rfl (eq_of_dig fun j => ?_)
  have hl : ∀ x ∈ q.map d, x < 8 := by
    intro x hx; obtain ⟨i, _, rfl⟩ := List.mem_map.mp hx; exact hd i
  have hl2 : ∀ x ∈ q.map (fun i => d i % 2), x < 8 := by
    intro x hx; obtain ⟨i, _, rfl⟩ := List.mem_map.mp hx; have := hd i; omega
  rw [Function.comp_apply, dig_trV mod2_lt (h64 q hq)]
  show _ = dig (packL (q.map fun i => d i % 2)) j
  rw [dig_packL _ hl2]
  split
  · rename_i hj
    have hj : j < q.length := hj
    show dig (packL (q.map d)) j % 2 = _
    rw [dig_packL _ hl]
    simp [List.getD_eq_getElem?_getD, hj]
  · rename_i hj
    have hj : ¬j < q.length := hj
    exact (getD_ge (by simp; omega)).symm

theorem enc_DP {B : ℕ} (hB : B < 8) {parts : List (List ℕ)} {d : ℕ → ℕ} (hd : ∀ i, d i ≤ B) : ∀ e ∈ enc parts d, DP B e := by
  intro e he
  obtain ⟨q, _, rfl⟩ := List.mem_map.mp he
  have := DP_packL hB (l := q.map d) (by intro x hx; obtain ⟨i, _, rfl⟩ := List.mem_map.mp hx; exact hd i)
  rwa [List.length_map] at this

/-- The digits of the packed list of positions `0, …, 63`. -/
theorem dig_pack64 {d : ℕ → ℕ} (hd : ∀ i, d i < 8) (j : ℕ) : dig (packL ((List.range 64).map d)) j = if j < 64 then d j else 0 := by
  rw [dig_packL _ (by intro x hx; obtain ⟨i, _, rfl⟩ := List.mem_map.mp hx; exact hd i)]
  split
  · rename_i h; simp [List.getD_eq_getElem?_getD, h]
  · rename_i h; exact getD_ge (by simp; omega)

theorem dig_pack_le {B : ℕ} (hB : B < 8) {l : List ℕ} {d : ℕ → ℕ} (hd : ∀ i, d i ≤ B) (j : ℕ) : dig (packL (l.map d)) j ≤ B :=
  (DP_packL hB (l := l.map d) (by intro x hx; obtain ⟨i, _, rfl⟩ := List.mem_map.mp hx; exact hd i)).le j

theorem pack_map_lt {l : List ℕ} {d : ℕ → ℕ} (hd : ∀ i, d i < 8) : packL (l.map d) < 8 ^ l.length := by
  have := packL_lt (l := l.map d) (by intro x hx; obtain ⟨i, _, rfl⟩ := List.mem_map.mp hx; exact hd i)
  rwa [List.length_map] at this

/-- Words of digits at most `B`. -/
structure DW (B : ℕ) (x : ℕ) : Prop where
  lt : x < 8 ^ 64
  le : ∀ j, dig x j ≤ B

theorem DW.add {A B x y : ℕ} (hx : DW A x) (hy : DW B y) (h : A + B < 8) :
    DW (A + B) (x + y) ∧ ∀ j, dig (x + y) j = dig x j + dig y j := by
  have key : ∀ j, dig (x + y) j = dig x j + dig y j := fun j => dig_add (fun j => by
    have := hx.le j; have := hy.le j; omega) j
  refine ⟨⟨lt_of_dig fun j hj => by rw [key, dig_of_lt hx.lt hj, dig_of_lt hy.lt hj], fun j => ?_⟩, key⟩
  rw [key]; have := hx.le j; have := hy.le j; omega

theorem DW.mono {A B x : ℕ} (hx : DW A x) (h : A ≤ B) : DW B x := ⟨hx.lt, fun j => le_trans (hx.le j) h⟩
theorem DW_zero (B : ℕ) : DW B 0 := ⟨by positivity, fun j => by rw [dig_zero_left]; omega⟩

/-- `field_xor` of words of bits. -/
theorem dig_xor {x y : ℕ} (j : ℕ) (hx : dig x j ≤ 1) (hy : dig y j ≤ 1) : dig (x ^^^ y) j = (dig x j + dig y j) % 2 := by
  have e : ∀ v : ℕ, dig v j = (v >>> (3 * j)) % 2 ^ 3 := by
    intro v
    unfold dig
    rw [Nat.shiftRight_eq_div_pow, pow_mul]
    norm_num
  rw [e] at hx hy ⊢
  rw [e, e, Nat.shiftRight_xor_distrib, Nat.xor_mod_two_pow]
  generalize (x >>> (3 * j)) % 2 ^ 3 = u at *
  generalize (y >>> (3 * j)) % 2 ^ 3 = v at *
  rcases (by omega : u = 0 ∨ u = 1) with rfl | rfl <;> rcases (by omega : v = 0 ∨ v = 1) with rfl | rfl <;> rfl

theorem DW.xor {x y : ℕ} (hx : DW 1 x) (hy : DW 1 y) : DW 1 (x ^^^ y) := by
  have key : ∀ j, dig (x ^^^ y) j = (dig x j + dig y j) % 2 := fun j => dig_xor j (hx.le j) (hy.le j)
  exact ⟨lt_of_dig fun j hj => by rw [key, dig_of_lt hx.lt hj, dig_of_lt hy.lt hj], fun j => by rw [key]; omega⟩

/-! ### Splits -/

/-- The positions of the parts, in order, are `0, …, 63`, and no part is longer than `ps`. -/
structure PartsOk (ps : ℕ) (parts : List (List ℕ)) : Prop where
  flat : parts.flatten = List.range 64
  len : ∀ q ∈ parts, q.length ≤ ps

instance (ps : ℕ) (parts : List (List ℕ)) : Decidable (PartsOk ps parts) :=
  decidable_of_iff (parts.flatten = List.range 64 ∧ ∀ q ∈ parts, q.length ≤ ps) ⟨fun h => ⟨h.1, h.2⟩, fun h => ⟨h.flat, h.len⟩⟩

theorem decN_split {ps rot x : ℕ} (hx : x < 8 ^ 64) {q : ℕ} (h : PartsOk q (wordParts ps rot false)) : decN (splitV ps rot x) = x := by
  rw [splitV_eq hx, decN_enc, h.flat, packL_dig hx]

/-- The parities of a split. -/
theorem split_par {ps rot x : ℕ} (hx : x < 8 ^ 64) (hps : ps ≤ 64) (h : PartsOk ps (wordParts ps rot false)) :
    (splitV ps rot x).map (trV (· % 2)) = enc (wordParts ps rot false) (fun i => dig x i % 2) := by
  rw [splitV_eq hx, trV_enc (fun i => dig_lt _ _) fun q hq => le_trans (h.len q hq) hps]

theorem decN_split_par {ps rot x : ℕ} (hx : x < 8 ^ 64) (hps : ps ≤ 64) (h : PartsOk ps (wordParts ps rot false)) (j : ℕ) :
    dig (decN ((splitV ps rot x).map (trV (· % 2)))) j = dig x j % 2 := by
  rw [split_par hx hps h, decN_enc, h.flat, dig_pack64 (fun i => by have := dig_lt x i; omega)]
  split
  · rfl
  · rw [dig_of_lt hx (by omega)]

/-! ### Tables -/

theorem norm_pair {range k B : ℕ} (hr : range ≤ 8) (hB : B < range) {e : ℕ × ℕ} (he : DP B e) (hl : e.1 ≤ numBits range k) (h64 : e.1 ≤ 64) :
    (e.2, (trV (· % 2) e).2) ∈ normTable range k := by
  have hp : (8 : ℕ) ^ e.1 ≤ 8 ^ numBits range k := Nat.pow_le_pow_right (by norm_num) hl
  refine tblRows_mem hr (fun d hd => by omega) (lt_of_lt_of_le he.lt hp) (lt_of_lt_of_le (trV_lt mod2_lt h64) hp) fun j _ => ⟨?_, trV_par he h64 j⟩
  have := he.le j
  omega

theorem norm_fst {range k B : ℕ} (hr : range ≤ 8) (hB : B < range) {e : ℕ × ℕ} (he : DP B e) (hl : e.1 ≤ numBits range k) (h64 : e.1 ≤ 64) :
    ∃ t ∈ normTable range k, t.1 = e.2 := ⟨_, norm_pair hr hB he hl h64, rfl⟩

theorem norm_zero {range k : ℕ} (hr : range ≤ 8) (h1 : 1 ≤ range) : (0, 0) ∈ normTable range k :=
  tblRows_mem hr (fun d hd => by omega) (by positivity) (by positivity) fun j _ => by rw [dig_zero_left]; exact ⟨by omega, rfl⟩

theorem toByteV_bits (l : List ℕ) (hd : ∀ d ∈ l, d ≤ 1) (j : ℕ) : toByteV l / 2 ^ j % 2 = l.getD j 0 := by
  induction l generalizing j with
  | nil => simp [toByteV]
  | cons d l ih =>
    have h1 := hd d (by simp)
    cases j with
    | zero => simp only [toByteV, pow_zero, Nat.div_one, List.getD_cons_zero]; omega
    | succ j =>
      rw [toByteV, List.getD_cons_succ, ← ih (fun d hd' => hd d (by simp [hd'])), pow_succ', ← Nat.div_div_eq_div_mul]
      congr 2
      omega

theorem toByteV_lt (l : List ℕ) (hd : ∀ d ∈ l, d ≤ 1) : toByteV l < 2 ^ l.length := by
  induction l with
  | nil => simp [toByteV]
  | cons d l ih =>
    have h1 := hd d (by simp)
    have := ih fun d hd' => hd d (by simp [hd'])
    rw [toByteV, List.length_cons, pow_succ]
    omega

theorem unpack_pair {e : ℕ × ℕ} (he : DP 1 e) (h8 : e.1 ≤ 8) : (e.2, (trB e).2) ∈ unpackTable := by
  have hbits : ∀ d ∈ (unpackN e.2).take e.1, d ≤ 1 := by
    intro d hd
    obtain ⟨q, _, rfl⟩ := List.mem_map.mp (List.mem_of_mem_take hd)
    exact he.le q
  have hlen : ((unpackN e.2).take e.1).length = e.1 := by simp [unpackN]; omega
  have hlt : (trB e).2 < 256 := by
    have := toByteV_lt _ hbits
    rw [hlen] at this
    exact lt_of_lt_of_le this (Nat.pow_le_pow_right (by norm_num) h8)
  refine List.mem_map.mpr ⟨(trB e).2, List.mem_range.mpr hlt, Prod.ext ?_ rfl⟩
  refine eq_of_dig fun j => ?_
  show dig (packL (byteBits (trB e).2)) j = dig e.2 j
  rw [dig_packL _ (by
    intro d hd
    obtain ⟨i, _, rfl⟩ := List.mem_map.mp hd
    have := Nat.mod_lt ((trB e).2 / 2 ^ i) (show 0 < 2 by norm_num)
    omega)]
  by_cases hj : j < 8
  · rw [show (byteBits (trB e).2).getD j 0 = (trB e).2 / 2 ^ j % 2 by simp [byteBits, List.getD_eq_getElem?_getD, hj]]
    unfold trB
    rw [toByteV_bits _ hbits]
    by_cases hj' : j < e.1
    · have h64 : j < 64 := by omega
      simp [List.getD_eq_getElem?_getD, unpackN, hj', h64]
    · rw [getD_ge (by omega), dig_of_lt he.lt (by omega)]
  · rw [getD_ge (by simp [byteBits]; omega), dig_of_lt he.lt (by omega)]

theorem unpack_zero : (0, 0) ∈ unpackTable := by
  have := unpack_pair (e := (0, 0)) ⟨by norm_num, fun j => by rw [dig_zero_left]; omega⟩ (by norm_num)
  exact this

end H2.Kec
