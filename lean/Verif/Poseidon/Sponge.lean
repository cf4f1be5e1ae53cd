import Verif.Poseidon.Native
import Verif.SafeTypes.Complete

/-! # The textbook sponge (specification), and the pure identities behind the hashers -/

set_option autoImplicit false
namespace H2
variable {p : ℕ} [Fact p.Prime]

/-- The padding of variable-input-length Poseidon: a single one, then zeros up to a multiple of the rate `R`. -/
def pad10 (R : ℕ) (xs : List (ZMod p)) : List (ZMod p) := xs ++ 1 :: List.replicate (R - 1 - xs.length % R) 0

/-- The sponge over a permutation `f`: add each block of the padded input to the rate part `s[1..]` and permute. -/
def spongeAbsorb (f : List (ZMod p) → List (ZMod p)) (R : ℕ) (s xs : List (ZMod p)) : List (ZMod p) :=
  (chunksOf R (pad10 R xs)).foldl (fun s c => f (addv s (0 :: c))) s

/-- The initial state: capacity element `2^64` (output length one), rate part zero. -/
def spongeInit (R : ℕ) : List (ZMod p) := (2 ^ 64 : ZMod p) :: List.replicate R 0

/-- The hash: the element `s[1]` of the final state. -/
def spongeHash (f : List (ZMod p) → List (ZMod p)) (R : ℕ) (xs : List (ZMod p)) : ZMod p :=
  (spongeAbsorb f R (spongeInit R) xs).getD 1 0

theorem spongeInit_length (R : ℕ) : (spongeInit R : List (ZMod p)).length = R + 1 := by
  unfold spongeInit; rw [List.length_cons, List.length_replicate]

/-! ### chunks -/

theorem chunksAux_mono {α : Type} {n : ℕ} (hn : 1 ≤ n) (f g : ℕ) (l : List α) (hf : l.length ≤ f) (hg : l.length ≤ g) :
    chunksAux n f l = chunksAux n g l := by
  induction f generalizing l g with
  | zero =>
    have : l = [] := by simpa using hf
    subst this
    cases g <;> rfl
  | succ f ih =>
    cases l with
    | nil => cases g <;> rfl
    | cons a l =>
      cases g with
      | zero => simp at hg
      | succ g =>
        simp only [chunksAux]
        congr 1
        exact ih _ _ (by simp at hf ⊢; omega) (by simp at hg ⊢; omega)

theorem chunksOf_nil {α : Type} (n : ℕ) : chunksOf n ([] : List α) = [] := rfl

theorem chunksOf_cons {α : Type} {n : ℕ} (hn : 1 ≤ n) {l : List α} (hl : l ≠ []) :
    chunksOf n l = l.take n :: chunksOf n (l.drop n) := by
  cases l with
  | nil => exact absurd rfl hl
  | cons a l =>
    unfold chunksOf
    rw [List.length_cons, chunksAux]
    congr 1
    exact chunksAux_mono hn _ _ _ (by simp; omega) le_rfl

theorem chunksOf_append {α : Type} {n : ℕ} (hn : 1 ≤ n) {a b : List α} (ha : a.length = n) :
    chunksOf n (a ++ b) = a :: chunksOf n b := by
  rw [chunksOf_cons hn (by intro h; simp at h; simp [h.1] at ha; omega), List.take_left' ha, List.drop_left' ha]

theorem chunksOf_single {α : Type} {n : ℕ} (hn : 1 ≤ n) {a : List α} (ha : a.length = n) :
    chunksOf n a = [a] := by
  have := chunksOf_append hn (b := []) ha
  rwa [List.append_nil, chunksOf_nil] at this

theorem pad10_drop {R : ℕ} {xs : List (ZMod p)} (h : R ≤ xs.length) :
    pad10 R xs = xs.take R ++ pad10 R (xs.drop R) := by
  unfold pad10
  rw [← List.append_assoc, List.take_append_drop, List.length_drop, ← Nat.mod_eq_sub_mod h]

theorem pad10_small {R : ℕ} (hR : 1 ≤ R) {xs : List (ZMod p)} (h : xs.length < R) : pad10 R xs = padBlock R xs := by
  unfold pad10 padBlock
  rw [Nat.mod_eq_of_lt h, List.take_append, List.take_of_length_le (l := xs) (by omega)]
  obtain ⟨d, hd⟩ : ∃ d, R - xs.length = d + 1 := ⟨R - xs.length - 1, by omega⟩
  rw [hd, List.take_succ_cons, List.take_replicate]
  congr 3
  omega

theorem padBlock_full {R : ℕ} {xs : List (ZMod p)} (h : xs.length = R) : padBlock R xs = xs := by
  rw [padBlock, List.take_left' h]

/-- The blocks of the padded input. -/
theorem chunksOf_pad10 {R : ℕ} (hR : 1 ≤ R) (xs : List (ZMod p)) :
    chunksOf R (pad10 R xs) = (chunksOf R xs).map (padBlock R) ++
      (if xs.length % R = 0 then [padBlock R []] else []) := by
  induction hn : xs.length using Nat.strong_induction_on generalizing xs with
  | _ n ih =>
    subst hn
    by_cases h : R ≤ xs.length
    · have hne : xs ≠ [] := by intro h'; simp [h'] at h; omega
      have hl : (xs.take R).length = R := by simp [h]
      rw [pad10_drop h, chunksOf_append hR hl, ih _ (by simp; omega) (xs.drop R) rfl, chunksOf_cons hR hne,
        List.map_cons, padBlock_full hl, List.length_drop, ← Nat.mod_eq_sub_mod h]
      rfl
    · have h : xs.length < R := by omega
      rw [pad10_small hR h, chunksOf_single hR (padBlock_length _ _), Nat.mod_eq_of_lt h]
      cases xs with
      | nil => simp [chunksOf_nil]
      | cons x xs =>
        rw [chunksOf_cons hR (by simp), List.take_of_length_le h.le, List.drop_of_length_le h.le, chunksOf_nil]
        simp

theorem nAbsorbPerm_eq {sp : PSpec p} {R : ℕ} {s : List (ZMod p)} (hs : s.length = R + 1) (xs : List (ZMod p)) :
    nAbsorbPerm sp s xs = nPerm sp (addv s (0 :: padBlock R xs)) := by
  rw [nAbsorbPerm, hs, Nat.add_sub_cancel]

theorem nAbsorbPerm_length {sp : PSpec p} {T : ℕ} (h : WFSpec sp T) (s xs : List (ZMod p)) :
    (nAbsorbPerm sp s xs).length = T := nPerm_length h _

theorem foldl_absorb {sp : PSpec p} {R : ℕ} (h : WFSpec sp (R + 1)) (cs : List (List (ZMod p))) {s : List (ZMod p)}
    (hs : s.length = R + 1) : cs.foldl (nAbsorbPerm sp) s =
      (cs.map (padBlock R)).foldl (fun s c => nPerm sp (addv s (0 :: c))) s := by
  induction cs generalizing s with
  | nil => rfl
  | cons c cs ih =>
    simp only [List.foldl_cons, List.map_cons]
    rw [nAbsorbPerm_eq hs, ih (nPerm_length h _)]

theorem foldl_absorb_length {sp : PSpec p} {T : ℕ} (h : WFSpec sp T) (cs : List (List (ZMod p))) {s : List (ZMod p)}
    (hs : s.length = T) : (cs.foldl (nAbsorbPerm sp) s).length = T := by
  induction cs generalizing s with
  | nil => exact hs
  | cons c cs ih => exact ih (nAbsorbPerm_length h _ _)

/-- The sponge, block by block as the code runs it. -/
theorem spongeAbsorb_eq {sp : PSpec p} {R : ℕ} (hR : 1 ≤ R) (h : WFSpec sp (R + 1)) (s xs : List (ZMod p))
    (hs : s.length = R + 1) : spongeAbsorb (nPerm sp) R s xs =
      (if xs.length % R = 0 then nAbsorbPerm sp ((chunksOf R xs).foldl (nAbsorbPerm sp) s) []
        else (chunksOf R xs).foldl (nAbsorbPerm sp) s) := by
  have hl : ((chunksOf R xs).foldl (nAbsorbPerm sp) s).length = R + 1 := foldl_absorb_length h _ hs
  rw [spongeAbsorb, chunksOf_pad10 hR, List.foldl_append, ← foldl_absorb h _ hs]
  split
  · rw [nAbsorbPerm_eq hl]; rfl
  · rfl

theorem spongeAbsorb_length {sp : PSpec p} {R : ℕ} (hR : 1 ≤ R) (h : WFSpec sp (R + 1)) (s xs : List (ZMod p))
    (hs : s.length = R + 1) : (spongeAbsorb (nPerm sp) R s xs).length = R + 1 := by
  rw [spongeAbsorb_eq hR h s xs hs]
  split
  · exact nAbsorbPerm_length h _ _
  · exact foldl_absorb_length h _ hs

/-- Absorbing a full block first. -/
theorem spongeAbsorb_full {sp : PSpec p} {R : ℕ} (hR : 1 ≤ R) (h : WFSpec sp (R + 1)) (s c xs : List (ZMod p))
    (hs : s.length = R + 1) (hc : c.length = R) :
    spongeAbsorb (nPerm sp) R s (c ++ xs) = spongeAbsorb (nPerm sp) R (nAbsorbPerm sp s c) xs := by
  rw [spongeAbsorb_eq hR h _ _ hs, spongeAbsorb_eq hR h _ _ (nAbsorbPerm_length h _ _), chunksOf_append hR hc,
    List.length_append, hc, Nat.add_mod_left]
  rfl

/-- Absorbing a last, partial block. -/
theorem spongeAbsorb_last {sp : PSpec p} {R : ℕ} (hR : 1 ≤ R) (h : WFSpec sp (R + 1)) (s c : List (ZMod p))
    (hs : s.length = R + 1) (hc : c.length < R) :
    spongeAbsorb (nPerm sp) R s c = nAbsorbPerm sp s c := by
  rw [spongeAbsorb_eq hR h _ _ hs, Nat.mod_eq_of_lt hc]
  cases c with
  | nil => rfl
  | cons x xs =>
    rw [chunksOf_cons hR (by simp), List.take_of_length_le hc.le, List.drop_of_length_le hc.le, chunksOf_nil]
    simp

/-! ### the variable-length loop -/

/-- One step of the variable-length loop on values: `q` full blocks, then `r` elements. -/
def nVarStep (sp : PSpec p) (R q r i : ℕ) (c st res : List (ZMod p)) : List (ZMod p) × List (ZMod p) :=
  let st' := nAbsorbPerm sp st ((c ++ List.replicate R 0).take (if i = q then r else R))
  (st', if i = q then st' else res)

/-- The variable-length loop on values. -/
def nVarLoop (sp : PSpec p) (R q r : ℕ) : ℕ → List (List (ZMod p)) → List (ZMod p) → List (ZMod p) →
    List (ZMod p) × List (ZMod p)
  | _, [], st, res => (st, res)
  | i, c :: cs, st, res =>
    let e := nVarStep sp R q r i c st res
    nVarLoop sp R q r (i + 1) cs e.1 e.2

theorem nVarLoop_past (sp : PSpec p) (R q r i : ℕ) (cs : List (List (ZMod p))) (st res : List (ZMod p)) (h : q < i) :
    (nVarLoop sp R q r i cs st res).2 = res := by
  induction cs generalizing i st res with
  | nil => rfl
  | cons c cs ih =>
    rw [nVarLoop, ih _ _ _ (by omega), nVarStep]
    simp [show i ≠ q by omega]

/-- The selected state of the loop over the blocks of `xs` is the sponge over the first `R*(q-i)+r` elements. -/
theorem nVarLoop_eq {sp : PSpec p} {R : ℕ} (hR : 1 ≤ R) (h : WFSpec sp (R + 1)) (q r i : ℕ) (hr : r < R) (hi : i ≤ q)
    (xs st res : List (ZMod p)) (hst : st.length = R + 1) (hx : R * (q - i) + r ≤ xs.length) :
    (R * (q - i) < xs.length →
      (nVarLoop sp R q r i (chunksOf R xs) st res).2 = spongeAbsorb (nPerm sp) R st (xs.take (R * (q - i) + r))) ∧
    (R * (q - i) = xs.length → (nVarLoop sp R q r i (chunksOf R xs) st res).2 = res ∧
      nAbsorbPerm sp (nVarLoop sp R q r i (chunksOf R xs) st res).1 [] = spongeAbsorb (nPerm sp) R st xs) := by
  obtain ⟨d, hd⟩ : ∃ d, q - i = d := ⟨_, rfl⟩
  induction d generalizing i xs st res with
  | zero =>
    have : i = q := by omega
    subst this
    rw [hd] at hx ⊢
    simp only [Nat.mul_zero, Nat.zero_add] at hx ⊢
    refine ⟨fun hpos => ?_, fun h0 => ?_⟩
    · rw [chunksOf_cons hR (by intro h; simp [h] at hpos), nVarLoop, nVarLoop_past _ _ _ _ _ _ _ _ (Nat.lt_succ_self _),
        nVarStep, if_pos rfl, if_pos rfl, spongeAbsorb_last hR h _ _ hst (by simp; omega)]
      congr 1
      rw [List.take_append, List.take_take, Nat.min_eq_left hr.le]
      have : r - (xs.take R).length = 0 := by simp; omega
      rw [this]; simp
    · have : xs = [] := by simpa using h0.symm
      subst this
      exact ⟨rfl, by rw [spongeAbsorb_last hR h _ _ hst (by simp; omega)]; rfl⟩
  | succ d ih =>
    have hlen : R ≤ xs.length := by
      rw [hd, Nat.mul_succ] at hx; omega
    have hne : xs ≠ [] := by intro h'; simp [h'] at hlen; omega
    have hl : (xs.take R).length = R := by simp [hlen]
    have e : R * (q - i) = R * (q - (i + 1)) + R := by rw [hd, show q - (i + 1) = d by omega, Nat.mul_succ]
    have e1 : nVarStep sp R q r i (xs.take R) st res = (nAbsorbPerm sp st (xs.take R), res) := by
      rw [nVarStep, if_neg (by omega), if_neg (by omega), List.take_left' hl]
    have := ih (i + 1) (by omega) (xs.drop R) (nAbsorbPerm sp st (xs.take R)) res (nAbsorbPerm_length h _ _)
      (by rw [List.length_drop]; omega) (by omega)
    rw [chunksOf_cons hR hne, nVarLoop, e1]
    refine ⟨fun h1 => ?_, fun h1 => ?_⟩
    · rw [this.1 (by rw [List.length_drop]; omega), ← spongeAbsorb_full hR h _ _ _ hst hl]
      congr 1
      rw [e, show R * (q - (i + 1)) + R + r = R + (R * (q - (i + 1)) + r) by ring]
      exact List.take_add.symm
    · have := this.2 (by rw [List.length_drop]; omega)
      refine ⟨this.1, ?_⟩
      rw [this.2, ← spongeAbsorb_full hR h _ _ _ hst hl, List.take_append_drop]

/-- The variable-length hash of `xs` with length `l`, on values. -/
def nVarRes (sp : PSpec p) (R l : ℕ) (xs st : List (ZMod p)) : List (ZMod p) :=
  let e := nVarLoop sp R (l / R) (l % R) 0 (chunksOf R xs) st st
  if xs.length % R = 0 then
    (if l / R = xs.length / R then nAbsorbPerm sp e.1 [] else e.2)
  else e.2

theorem nVarRes_eq {sp : PSpec p} {R : ℕ} (hR : 1 ≤ R) (h : WFSpec sp (R + 1)) (l : ℕ) (xs st : List (ZMod p))
    (hst : st.length = R + 1) (hl : l ≤ xs.length) :
    nVarRes sp R l xs st = spongeAbsorb (nPerm sp) R st (xs.take l) := by
  have hdm := Nat.div_add_mod l R
  have hr : l % R < R := Nat.mod_lt _ (by omega)
  have key := nVarLoop_eq hR h (l / R) (l % R) 0 hr (Nat.zero_le _) xs st st hst (by rw [Nat.sub_zero]; omega)
  rw [Nat.sub_zero, hdm] at key
  unfold nVarRes
  by_cases hlt : R * (l / R) < xs.length
  · have k1 := key.1 hlt
    simp only [k1]
    split
    · rename_i hm
      rw [if_neg]
      intro he
      have := Nat.div_add_mod xs.length R
      rw [hm, ← he] at this
      omega
    · rfl
  · have heq : R * (l / R) = xs.length := by omega
    have k2 := key.2 heq
    have hm : xs.length % R = 0 := by rw [← heq]; exact Nat.mul_mod_right _ _
    have hq : l / R = xs.length / R := by rw [← heq, Nat.mul_div_cancel_left _ (by omega)]
    have hll : l = xs.length := by omega
    simp only [if_pos hm]
    rw [if_pos hq, k2.2, hll, List.take_length]

end H2
