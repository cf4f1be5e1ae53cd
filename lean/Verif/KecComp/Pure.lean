import Verif.KecComp.Model
import Verif.Poseidon.SoundHash

/-!
# Pure facts about the packing of bytes into field elements
-/

set_option autoImplicit false
set_option linter.unusedSectionVars false
namespace H2.KC
open H2.Kec
variable {p : ℕ} [Fact p.Prime]

/-! ### chunks by index -/

theorem chunksOf_range {α : Type} {n : ℕ} (hn : 1 ≤ n) (l : List α) :
    chunksOf n l = (List.range (ceilDiv l.length n)).map fun i => (l.drop (n * i)).take n := by
  obtain ⟨f, hf⟩ : ∃ f, l.length ≤ f := ⟨_, le_rfl⟩
  induction f generalizing l with
  | zero =>
    have : l = [] := by simpa using hf
    subst this
    simp only [chunksOf_nil, ceilDiv, List.length_nil]
    rw [Nat.div_eq_of_lt (by omega)]; rfl
  | succ f ih =>
    by_cases hl : l = []
    · subst hl
      simp only [chunksOf_nil, ceilDiv, List.length_nil]
      rw [Nat.div_eq_of_lt (by omega)]; rfl
    · have hpos : 1 ≤ l.length := by
        rcases l with _ | ⟨a, l⟩
        · exact absurd rfl hl
        · simp
      rw [chunksOf_cons hn hl, ih (l.drop n) (by simp; omega)]
      have hc : ceilDiv l.length n = ceilDiv (l.drop n).length n + 1 := by
        simp only [ceilDiv, List.length_drop]
        by_cases h : n ≤ l.length
        · rw [show l.length + n - 1 = (l.length - n + n - 1) + n by omega, Nat.add_div_right _ (by omega)]
        · rw [show l.length - n = 0 by omega, Nat.div_eq_of_lt (by omega : 0 + n - 1 < n),
            show l.length + n - 1 = (l.length - 1) + n by omega, Nat.add_div_right _ (by omega), Nat.div_eq_of_lt (by omega)]
      rw [hc, List.range_succ_eq_map, List.map_cons, List.map_map]
      congr 1
      refine List.map_congr_left fun i _ => ?_
      simp only [Function.comp, List.drop_drop, Nat.mul_succ]
      rw [Nat.add_comm]

theorem chunksOf_length' {α : Type} {n : ℕ} (hn : 1 ≤ n) (l : List α) : (chunksOf n l).length = ceilDiv l.length n :=
  (chunksOf_spec hn l).2.2

theorem zipIdx_range {α : Type} (g : ℕ → α) (n : ℕ) : ((List.range n).map g).zipIdx = (List.range n).map fun i => (g i, i) := by
  apply List.ext_getElem
  · simp
  · intro i h1 h2
    simp

/-! ### positional values -/

/-- `Σ b^i x_i`. -/
def horn (b : ZMod p) : List (ZMod p) → ZMod p
  | [] => 0
  | x :: xs => x + b * horn b xs

theorem horn_append (b : ZMod p) (xs ys : List (ZMod p)) : horn b (xs ++ ys) = horn b xs + b ^ xs.length * horn b ys := by
  induction xs with
  | nil => simp [horn]
  | cons x xs ih =>
    simp only [List.cons_append, horn, ih, List.length_cons, pow_succ]
    ring

theorem horn_zeros (b : ZMod p) (n : ℕ) : horn b (List.replicate n (0 : ZMod p)) = 0 := by
  induction n with
  | zero => rfl
  | succ n ih => rw [List.replicate_succ, horn, ih]; ring

theorem horn_pad (b : ZMod p) (xs : List (ZMod p)) (n : ℕ) : horn b (xs ++ List.replicate n 0) = horn b xs := by
  rw [horn_append, horn_zeros]; ring

theorem dot_multLoop (b c : ZMod p) (n : ℕ) (xs : List (ZMod p)) (h : xs.length ≤ n) : dot xs (multLoop b n c) = c * b * horn b xs := by
  induction n generalizing xs c with
  | zero =>
    have : xs = [] := by simpa using h
    subst this; simp [horn]
  | succ n ih =>
    cases xs with
    | nil => simp [horn]
    | cons x xs =>
      rw [multLoop, dot_cons, ih _ _ (by simpa using h), horn]
      ring

theorem dot_multipliers (b : ZMod p) {n : ℕ} {xs : List (ZMod p)} (h : xs.length ≤ n) : dot xs (multipliers b n) = horn b xs := by
  cases xs with
  | nil => simp [horn]
  | cons x xs =>
    simp only [List.length_cons] at h
    rw [multipliers, dot_cons, dot_multLoop _ _ _ _ (by omega), horn]
    ring

theorem multLoop_length (b c : ZMod p) (n : ℕ) : (multLoop b n c).length = n := by
  induction n generalizing c with
  | zero => rfl
  | succ n ih => rw [multLoop, List.length_cons, ih]

theorem multipliers_length (b : ZMod p) {n : ℕ} (h : 1 ≤ n) : (multipliers b n).length = n := by
  rw [multipliers, List.length_cons, multLoop_length]; omega

theorem dot_take (xs ys : List (ZMod p)) : dot xs (ys.take xs.length) = dot xs ys := by
  induction xs generalizing ys with
  | nil => simp
  | cons x xs ih =>
    cases ys with
    | nil => simp
    | cons y ys => simp [ih]

/-! ### `format_input` on values -/

/-- The words of the bytes `xs`. -/
def vWord (xs : List (ZMod p)) (t : ℕ) : ZMod p := horn 256 ((xs.drop (8 * t)).take 8)
/-- The words of block `i`. -/
def vBlock (len : ZMod p) (xs : List (ZMod p)) (i : ℕ) : List (ZMod p) :=
  (if i = 0 then len else 0) :: (List.range 17).map fun t => vWord xs (17 * i + t)
/-- The packed words. -/
def vPack (W : ℕ) (ws : List (ZMod p)) : List (ZMod p) := (chunksOf W ws).map (horn (2 ^ 64))
/-- The rate-sized chunks. -/
def vAbs (ws : List (ZMod p)) : List (List (ZMod p)) := (chunksOf 2 ws).map (padTo 2 0)
/-- The result of `format_input` on values. -/
def vFormat (W : ℕ) (len : ZMod p) (xs : List (ZMod p)) : List (List (List (ZMod p))) :=
  (List.range (numF xs.length)).map fun i => vAbs (vPack W (vBlock len xs i))

theorem words_eq (xs : List (ZMod p)) :
    (chunksOf 8 (xs ++ [0])).map (fun c => dot c (multipliers (256 : ZMod p) 8)) = (List.range (xs.length / 8 + 1)).map (vWord xs) := by
  rw [chunksOf_range (by norm_num), List.map_map]
  have : ceilDiv (xs ++ [(0 : ZMod p)]).length 8 = xs.length / 8 + 1 := by
    simp only [ceilDiv, List.length_append, List.length_singleton]; omega
  rw [this]
  refine List.map_congr_left fun t ht => ?_
  have ht := List.mem_range.mp ht
  have ht' : 8 * t ≤ xs.length := by omega
  simp only [Function.comp]
  rw [dot_multipliers _ (by simp), vWord, List.drop_append_of_le_length ht']
  by_cases h : xs.length < 8 * t + 8
  · rw [List.take_append, List.take_of_length_le (l := xs.drop (8 * t)) (by simp; omega)]
    rw [show ([0] : List (ZMod p)) = List.replicate 1 0 from rfl, List.take_replicate, horn_pad]
  · rw [List.take_append_of_le_length (by simp; omega)]

theorem vWord_ge (xs : List (ZMod p)) {t : ℕ} (h : xs.length / 8 + 1 ≤ t) : vWord xs t = 0 := by
  unfold vWord
  rw [List.drop_eq_nil_of_le (by omega)]; rfl

theorem numF_eq (l : ℕ) : ceilDiv (l / 8 + 1) 17 = numF l := by
  simp only [ceilDiv, numF]; omega

theorem padTo_range {α : Type} (g : ℕ → α) (z : α) (n k c : ℕ) (hz : ∀ t, n ≤ t → g t = z) :
    padTo c z ((((List.range n).map g).drop k).take c) = (List.range c).map fun t => g (k + t) := by
  unfold padTo
  apply List.ext_getElem
  · simp
  · intro j h1 h2
    have hj : j < c := by simpa using h2
    rw [List.getElem_append]
    split
    · simp
    · rename_i h
      rw [List.getElem_replicate, List.getElem_map, List.getElem_range, hz]
      simp at h
      omega

/-- The 17 words of block `i`, from the list of words. -/
theorem block_eq (xs : List (ZMod p)) (i : ℕ) :
    padTo 17 0 ((((List.range (xs.length / 8 + 1)).map (vWord xs)).drop (17 * i)).take 17) =
      (List.range 17).map fun t => vWord xs (17 * i + t) := padTo_range _ _ _ _ _ fun _ ht => vWord_ge xs ht

theorem perF_eq (len : ZMod p) (xs : List (ZMod p)) :
    (chunksOf 17 ((chunksOf 8 (xs ++ [0])).map (fun c => dot c (multipliers (256 : ZMod p) 8)))).zipIdx.map
      (fun e => (if e.2 = 0 then len else 0) :: padTo 17 0 e.1) = (List.range (numF xs.length)).map (vBlock len xs) := by
  rw [words_eq, chunksOf_range (by norm_num), List.length_map, List.length_range, numF_eq, zipIdx_range, List.map_map]
  refine List.map_congr_left fun i _ => ?_
  simp only [Function.comp, vBlock, block_eq]

theorem vBlock_length (len : ZMod p) (xs : List (ZMod p)) (i : ℕ) : (vBlock len xs i).length = 18 := by
  rw [vBlock, List.length_cons, List.length_map, List.length_range]

theorem padTo_length {α : Type} {n : ℕ} {z : α} {l : List α} (h : l.length ≤ n) : (padTo n z l).length = n := by
  unfold padTo; rw [List.length_append, List.length_replicate]; omega

theorem vAbs_len (ws : List (ZMod p)) : ∀ c ∈ vAbs ws, c.length = 2 := by
  intro c hc
  obtain ⟨d, hd, rfl⟩ := List.mem_map.mp hc
  exact padTo_length ((chunksOf_spec (by norm_num) ws).1 d hd)

theorem vAbs_flatten (ws : List (ZMod p)) : (vAbs ws).flatten = padEven 0 ws := by
  obtain ⟨f, hf⟩ : ∃ f, ws.length ≤ f := ⟨_, le_rfl⟩
  unfold vAbs
  induction f using Nat.strong_induction_on generalizing ws with
  | _ f ih =>
    match ws with
    | [] => rfl
    | [a] => rfl
    | a :: b :: ws =>
      have := ih (f - 1) (by simp at hf; omega) ws (by simp at hf; omega)
      rw [show a :: b :: ws = [a, b] ++ ws from rfl, chunksOf_append (n := 2) (by norm_num) rfl, List.map_cons, List.flatten_cons, this]
      simp only [padEven, List.length_append, List.length_cons, List.length_nil, padTo]
      norm_num
      split <;> rfl

/-! ### the specification on numbers -/

theorem horn_ofWords (ws : List ℕ) : horn (2 ^ 64 : ZMod p) (ws.map fun x => ((x : ℕ) : ZMod p)) = ((ofWords ws : ℕ) : ZMod p) := by
  induction ws with
  | nil => simp [horn, ofWords]
  | cons w ws ih => rw [List.map_cons, horn, ih, ofWords]; push_cast; ring

theorem horn_leBytes (c : List Byte) : horn (256 : ZMod p) (c.map fun b => ((b.toNat : ℕ) : ZMod p)) = ((leBytes c : ℕ) : ZMod p) := by
  induction c with
  | nil => simp [horn, leBytes]
  | cons b c ih =>
    rw [List.map_cons, horn, ih]
    show _ = ((b.toNat + 256 * leBytes c : ℕ) : ZMod p)
    push_cast; ring

theorem leBytes_append (c : List Byte) (n : ℕ) : leBytes (c ++ List.replicate n 0) = leBytes c := by
  induction c with
  | nil =>
    induction n with
    | zero => rfl
    | succ n ih => rw [List.nil_append] at ih ⊢; rw [List.replicate_succ]; show 0 + 256 * leBytes _ = _; rw [ih]; rfl
  | cons b c ih => rw [List.cons_append]; show b.toNat + 256 * leBytes _ = b.toNat + 256 * leBytes _; rw [ih]

theorem leBytes_lane (m : List Byte) (t : ℕ) : leBytes ((m.drop (8 * t)).take 8) = (leLane m t).toNat := by
  have h8 : (List.range 8).map (fun c => m.getD (8 * t + c) 0) = padTo 8 0 ((m.drop (8 * t)).take 8) := by
    rw [← padTo_range (fun t => m.getD t 0) 0 m.length (8 * t) 8 fun t ht => by
      rw [List.getD_eq_getElem?_getD, List.getElem?_eq_none ht]; rfl]
    congr 3
    apply List.ext_getElem
    · simp
    · intro j h1 h2
      rw [List.getElem_map, List.getElem_range, List.getD_eq_getElem?_getD, List.getElem?_eq_getElem h2]; rfl
  have h9 : leBytes ((m.drop (8 * t)).take 8) = leBytes ((List.range 8).map (fun c => m.getD (8 * t + c) 0)) := by
    rw [h8, padTo, leBytes_append]
  rw [h9]
  simp only [List.range_succ, List.range_zero, List.nil_append, List.map_append, List.map_cons, List.map_nil, List.cons_append, leBytes,
    List.foldr_cons, List.foldr_nil, leLane, H2.Sha.toNat_app, Nat.add_zero]
  ring

theorem vWord_bytes (m : List Byte) (k t : ℕ) :
    vWord (m.map (fun b => ((b.toNat : ℕ) : ZMod p)) ++ List.replicate k 0) t = (((leLane m t).toNat : ℕ) : ZMod p) := by
  unfold vWord
  rw [← leBytes_lane, ← horn_leBytes, List.drop_append, List.take_append, List.map_take, List.map_drop, List.drop_replicate,
    List.take_replicate, horn_pad]

theorem vBlock_bytes (m : List Byte) (k i : ℕ) :
    vBlock ((m.length : ℕ) : ZMod p) (m.map (fun b => ((b.toNat : ℕ) : ZMod p)) ++ List.replicate k 0) i =
      (blockWords m i).map fun x => ((x : ℕ) : ZMod p) := by
  unfold vBlock blockWords
  rw [List.map_cons, List.map_map]
  congr 1
  · split <;> simp
  · refine List.map_congr_left fun t _ => ?_
    rw [vWord_bytes]; rfl

theorem vPack_cast {W : ℕ} (hW : 1 ≤ W) (ws : List ℕ) :
    vPack W (ws.map fun x => ((x : ℕ) : ZMod p)) = (packBlock W ws).map fun x => ((x : ℕ) : ZMod p) := by
  unfold vPack packBlock
  rw [chunksOf_map, List.map_map, chunksOf_range hW, List.map_map, List.map_map]
  refine List.map_congr_left fun j _ => ?_
  simp only [Function.comp]
  rw [horn_ofWords]

theorem padEven_map {α β : Type} (g : α → β) (z : α) (l : List α) : (padEven z l).map g = padEven (g z) (l.map g) := by
  unfold padEven
  rw [List.length_map]
  split <;> simp

/-- `format_input` on the bytes of a message, possibly followed by zeros: the first blocks are those of the message. -/
theorem vFormat_bytes {W : ℕ} (hW : 1 ≤ W) (m : List Byte) (k : ℕ) {n : ℕ} (hn : n = numF m.length) :
    ((vFormat W ((m.length : ℕ) : ZMod p) (m.map (fun b => ((b.toNat : ℕ) : ZMod p)) ++ List.replicate k 0)).take n).flatMap List.flatten =
      (keyElems W m).map fun x => ((x : ℕ) : ZMod p) := by
  subst hn
  unfold vFormat keyElems
  have : numF m.length ≤ numF (m.map (fun b : Byte => ((b.toNat : ℕ) : ZMod p)) ++ List.replicate k 0).length := by
    simp only [numF, List.length_append, List.length_map, List.length_replicate]
    have := Nat.div_le_div_right (c := 136) (Nat.le_add_right m.length k)
    omega
  rw [← List.map_take, List.take_range, min_eq_left this, List.flatMap_map, List.map_flatMap]
  refine List.flatMap_congr fun i _ => ?_
  rw [vAbs_flatten, vBlock_bytes, vPack_cast hW, padEven_map]
  simp

/-! ### the native code -/

theorem foldl_dot (c : List ℕ) (ms : List (ZMod p)) (a : ZMod p) :
    (c.zip ms).foldl (fun acc e => acc + ((e.1 : ℕ) : ZMod p) * e.2) a = a + dot (c.map fun x => ((x : ℕ) : ZMod p)) ms := by
  induction c generalizing ms a with
  | nil => simp
  | cons x c ih =>
    cases ms with
    | nil => simp
    | cons y ms => rw [List.zip_cons_cons, List.foldl_cons, ih, List.map_cons, dot_cons]; ring

theorem nat_words (m : List Byte) :
    (chunksOf 17 (if m.length % 136 = 0 then (chunksOf 8 m).map leBytes ++ List.replicate 17 0 else (chunksOf 8 m).map leBytes)).zipIdx.map
      (fun e => (if e.2 = 0 then m.length else 0) :: padTo 17 0 e.1) = (List.range (numF m.length)).map (blockWords m) := by
  have hw : (chunksOf 8 m).map leBytes = (List.range (ceilDiv m.length 8)).map fun t => (leLane m t).toNat := by
    rw [chunksOf_range (by norm_num), List.map_map]
    exact List.map_congr_left fun t _ => leBytes_lane m t
  have hz : ∀ t, ceilDiv m.length 8 ≤ t → (leLane m t).toNat = 0 := by
    intro t ht
    rw [← leBytes_lane, List.drop_eq_nil_of_le (by simp only [ceilDiv] at ht; omega)]; rfl
  have key : ∀ (n : ℕ), ceilDiv n 17 = numF m.length → ceilDiv m.length 8 ≤ n →
      (chunksOf 17 ((List.range n).map fun t => (leLane m t).toNat)).zipIdx.map
      (fun e => (if e.2 = 0 then m.length else 0) :: padTo 17 0 e.1) = (List.range (numF m.length)).map (blockWords m) := by
    intro n hn hn2
    rw [chunksOf_range (by norm_num), List.length_map, List.length_range, hn, zipIdx_range, List.map_map]
    refine List.map_congr_left fun i _ => ?_
    simp only [Function.comp, blockWords]
    congr 1
    exact padTo_range _ _ _ _ _ fun t ht => hz t (by omega)
  split
  · rename_i h
    rw [hw]
    have : (List.range (ceilDiv m.length 8)).map (fun t => (leLane m t).toNat) ++ List.replicate 17 0 =
        (List.range (ceilDiv m.length 8 + 17)).map fun t => (leLane m t).toNat := by
      rw [List.range_add, List.map_append, List.map_map]
      congr 1
      symm
      rw [List.eq_replicate_iff]
      refine ⟨by simp, fun b hb => ?_⟩
      obtain ⟨t, _, rfl⟩ := List.mem_map.mp hb
      exact hz _ (Nat.le_add_right _ _)
    rw [this]
    exact key _ (by simp only [ceilDiv, numF]; omega) (by omega)
  · rename_i h
    rw [hw]
    exact key _ (by simp only [ceilDiv, numF]; omega) (by omega)

/-- The native encoding packs as specified. -/
theorem packNative_eq (hW : 1 ≤ wpw p) (m : List Byte) :
    (packNative m : Option (List (List (ZMod p)))) =
      some ((List.range (numF m.length)).map fun i => (packBlock (wpw p) (blockWords m i)).map fun x => ((x : ℕ) : ZMod p)) := by
  unfold packNative
  simp only
  rw [if_neg (by omega), nat_words, List.map_map]
  congr 1
  refine List.map_congr_left fun i _ => ?_
  simp only [Function.comp]
  unfold packBlock
  rw [chunksOf_range hW, List.map_map, List.map_map]
  refine List.map_congr_left fun j _ => ?_
  simp only [Function.comp]
  rw [foldl_dot, zero_add, dot_multipliers _ (by simp), horn_ofWords]

theorem encodeNative_eq (f : List (ZMod p) → List (ZMod p)) (hW : 1 ≤ wpw p) (m : List Byte) : encodeNative f m = some (key f (wpw p) m) := by
  unfold encodeNative
  rw [packNative_eq hW, Option.map_some, key, keyElems, List.map_flatMap, List.flatMap_map]
  congr 3
  funext i
  rw [padEven_map]
  have := vAbs_flatten ((packBlock (wpw p) (blockWords m i)).map fun x => ((x : ℕ) : ZMod p))
  rw [vAbs, ← List.flatMap_def] at this
  rw [this]; simp

/-! ### injectivity -/

theorem lane_lt (m : List Byte) (t : ℕ) : (leLane m t).toNat < 2 ^ 64 := BitVec.isLt _

theorem blockWords_lt {m : List Byte} (hm : m.length < 2 ^ 64) (i : ℕ) : ∀ w ∈ blockWords m i, w < 2 ^ 64 := by
  intro w hw
  rcases List.mem_cons.mp hw with rfl | hw
  · split
    · exact hm
    · positivity
  · obtain ⟨t, _, rfl⟩ := List.mem_map.mp hw
    exact lane_lt _ _

theorem ofWords_lt (ws : List ℕ) (h : ∀ w ∈ ws, w < 2 ^ 64) : ofWords ws < 2 ^ (64 * ws.length) := by
  induction ws with
  | nil => simp [ofWords]
  | cons w ws ih =>
    have h1 := h w (by simp)
    have h2 := ih fun w hw => h w (by simp [hw])
    rw [ofWords, List.length_cons, show 64 * (ws.length + 1) = 64 + 64 * ws.length by ring, pow_add]
    generalize 2 ^ (64 * ws.length) = B at h2
    nlinarith

theorem ofWords_inj (ws vs : List ℕ) (hl : ws.length = vs.length) (h1 : ∀ w ∈ ws, w < 2 ^ 64) (h2 : ∀ w ∈ vs, w < 2 ^ 64)
    (he : ofWords ws = ofWords vs) : ws = vs := by
  induction ws generalizing vs with
  | nil => cases vs with
    | nil => rfl
    | cons v vs => simp at hl
  | cons w ws ih =>
    cases vs with
    | nil => simp at hl
    | cons v vs =>
      have hw := h1 w (by simp)
      have hv := h2 v (by simp)
      rw [ofWords, ofWords] at he
      have e1 : w = v := by
        have := congrArg (· % 2 ^ 64) he
        simpa only [Nat.add_mul_mod_self_left, Nat.mod_eq_of_lt hw, Nat.mod_eq_of_lt hv] using this
      subst e1
      have e2 : ofWords ws = ofWords vs := Nat.eq_of_mul_eq_mul_left (by positivity : 0 < 2 ^ 64) (by omega)
      rw [ih vs (by simpa using hl) (fun w hw => h1 w (by simp [hw])) (fun w hw => h2 w (by simp [hw])) e2]

theorem packBlock_length (W : ℕ) (ws : List ℕ) : (packBlock W ws).length = (ws.length + W - 1) / W := by
  rw [packBlock, List.length_map, List.length_range]

theorem packBlock_inj {W : ℕ} (hW : 1 ≤ W) {ws vs : List ℕ} (hl : ws.length = vs.length) (h1 : ∀ w ∈ ws, w < 2 ^ 64) (h2 : ∀ w ∈ vs, w < 2 ^ 64)
    (he : packBlock W ws = packBlock W vs) : ws = vs := by
  have hc : ∀ (ws : List ℕ), (chunksOf W ws).flatten = ws := fun ws => (chunksOf_spec hW ws).2.1
  rw [← hc ws, ← hc vs]
  congr 1
  rw [chunksOf_range hW, chunksOf_range hW, hl]
  refine List.map_congr_left fun j hj => ?_
  have hj := List.mem_range.mp hj
  unfold packBlock at he
  rw [hl] at he
  have := List.map_inj_left.mp he j (List.mem_range.mpr hj)
  refine ofWords_inj _ _ (by simp [hl]) (fun w hw => h1 w ?_) (fun w hw => h2 w ?_) this
  · exact List.mem_of_mem_drop (List.mem_of_mem_take hw)
  · exact List.mem_of_mem_drop (List.mem_of_mem_take hw)

theorem packBlock_lt {W : ℕ} {ws : List ℕ} (h : ∀ w ∈ ws, w < 2 ^ 64) : ∀ x ∈ packBlock W ws, x < 2 ^ (64 * W) := by
  intro x hx
  obtain ⟨j, _, rfl⟩ := List.mem_map.mp hx
  refine lt_of_lt_of_le (ofWords_lt _ fun w hw => h w (List.mem_of_mem_drop (List.mem_of_mem_take hw))) ?_
  refine Nat.pow_le_pow_right (by norm_num) (Nat.mul_le_mul_left _ ?_)
  simp

theorem padEven_inj {α : Type} {z : α} {l l' : List α} (hl : l.length = l'.length) (h : padEven z l = padEven z l') : l = l' := by
  unfold padEven at h
  rw [hl] at h
  split at h
  · exact h
  · exact (List.append_inj h hl).1

theorem padEven_length {α : Type} (z : α) (l : List α) : (padEven z l).length = (l.length + 1) / 2 * 2 := by
  unfold padEven
  split
  · omega
  · simp; omega

theorem flatMap_range_inj {α : Type} {c : ℕ} (hc : 1 ≤ c) (g g' : ℕ → List α) (hg : ∀ i, (g i).length = c) (hg' : ∀ i, (g' i).length = c) {n n' : ℕ}
    (h : (List.range n).flatMap g = (List.range n').flatMap g') : n = n' ∧ ∀ i, i < n → g i = g' i := by
  induction n generalizing n' g g' with
  | zero =>
    cases n' with
    | zero => exact ⟨rfl, fun i hi => by omega⟩
    | succ n' =>
      have := congrArg List.length h
      rw [List.range_succ_eq_map, List.flatMap_cons, List.length_append, hg'] at this
      simp at this
      omega
  | succ n ih =>
    cases n' with
    | zero =>
      have := congrArg List.length h
      rw [List.range_succ_eq_map, List.flatMap_cons, List.length_append, hg] at this
      simp at this
      omega
    | succ n' =>
      rw [List.range_succ_eq_map, List.range_succ_eq_map, List.flatMap_cons, List.flatMap_cons, List.flatMap_map, List.flatMap_map] at h
      obtain ⟨h1, h2⟩ := List.append_inj h (by rw [hg, hg'])
      obtain ⟨e, h3⟩ := ih (fun i => g (i + 1)) (fun i => g' (i + 1)) (fun i => hg _) (fun i => hg' _) h2
      refine ⟨by omega, fun i hi => ?_⟩
      cases i with
      | zero => exact h1
      | succ i => exact h3 i (by omega)

theorem leBytes_inj (c d : List Byte) (hl : c.length = d.length) (h : leBytes c = leBytes d) : c = d := by
  induction c generalizing d with
  | nil => cases d with
    | nil => rfl
    | cons b d => simp at hl
  | cons b c ih =>
    cases d with
    | nil => simp at hl
    | cons b' d =>
      have h' : b.toNat + 256 * leBytes c = b'.toNat + 256 * leBytes d := h
      have h1 : b.toNat < 256 := b.isLt
      have h2 : b'.toNat < 256 := b'.isLt
      have e : b = b' := BitVec.eq_of_toNat_eq (by omega)
      rw [e, ih d (by simpa using hl) (by omega)]

/-- Messages shorter than `2^64` bytes are determined by their key elements. -/
theorem keyElems_inj {W : ℕ} (hW : 1 ≤ W) {m m' : List Byte} (hm : m.length < 2 ^ 64) (hm' : m'.length < 2 ^ 64)
    (h : keyElems W m = keyElems W m') : m = m' := by
  have hlen : ∀ (m : List Byte) i, (padEven 0 (packBlock W (blockWords m i))).length = ((18 + W - 1) / W + 1) / 2 * 2 := by
    intro m i
    rw [padEven_length, packBlock_length]
    simp [blockWords]
  have hc : 1 ≤ ((18 + W - 1) / W + 1) / 2 * 2 := by
    have : 1 ≤ (18 + W - 1) / W := by rw [Nat.one_le_div_iff (by omega)]; omega
    omega
  obtain ⟨hn, hb⟩ := flatMap_range_inj hc _ _ (hlen m) (hlen m') h
  have hb' : ∀ i, i < numF m.length → blockWords m i = blockWords m' i := fun i hi =>
    packBlock_inj hW (by simp [blockWords]) (blockWords_lt hm i) (blockWords_lt hm' i)
      (padEven_inj (by simp [packBlock_length, blockWords]) (hb i hi))
  have hl : m.length = m'.length := by
    have := hb' 0 (by simp [numF])
    unfold blockWords at this
    simpa using (List.cons.inj this).1
  have hlane : ∀ t, t < 17 * numF m.length → (leLane m t).toNat = (leLane m' t).toNat := by
    intro t ht
    have := (List.cons.inj (hb' (t / 17) (by omega))).2
    have := List.map_inj_left.mp this (t % 17) (List.mem_range.mpr (Nat.mod_lt _ (by norm_num)))
    rwa [Nat.div_add_mod] at this
  rw [← (chunksOf_spec (by norm_num : 1 ≤ 8) m).2.1, ← (chunksOf_spec (by norm_num : 1 ≤ 8) m').2.1]
  congr 1
  rw [chunksOf_range (by norm_num), chunksOf_range (by norm_num), hl]
  refine List.map_congr_left fun t ht => ?_
  have ht := List.mem_range.mp ht
  refine leBytes_inj _ _ (by simp [hl]) ?_
  rw [leBytes_lane, leBytes_lane, hlane t (by simp only [ceilDiv, numF] at *; omega)]

theorem keyElems_lt {W : ℕ} {m : List Byte} (hm : m.length < 2 ^ 64) : ∀ x ∈ keyElems W m, x < 2 ^ (64 * W) := by
  intro x hx
  obtain ⟨i, _, hx⟩ := List.mem_flatMap.mp hx
  unfold padEven at hx
  split at hx
  · exact packBlock_lt (blockWords_lt hm i) x hx
  · rcases List.mem_append.mp hx with hx | hx
    · exact packBlock_lt (blockWords_lt hm i) x hx
    · rw [List.mem_singleton.mp hx]; positivity

end H2.KC
