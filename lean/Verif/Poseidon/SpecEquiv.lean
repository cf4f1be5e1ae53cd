import Verif.Poseidon.Spec

/-!
# The optimised parameters compute the textbook permutation

`newSpec` turns round constants and an MDS matrix into sparse matrices and shifted constants; the permutation with those
(`nPerm`, which the circuit computes) is the textbook permutation `poseidonPerm`.
-/

set_option autoImplicit false
set_option linter.unusedSectionVars false
namespace H2
variable {p : ℕ} [Fact p.Prime]

/-! ### The optimised rounds on `Fin T → F` -/

/-- `x ↦ x^5 + c`. -/
def oSbox {n : ℕ} (c x : Fin n → ZMod p) : Fin n → ZMod p := fun i => x i ^ 5 + c i

/-- `x ↦ x^5 + c` in coordinate zero. -/
def oPart {R : ℕ} (c : ZMod p) (x : Fin (R + 1) → ZMod p) : Fin (R + 1) → ZMod p :=
  Fin.cases (x 0 ^ 5 + c) (fun i => x i.succ)

/-- Multiplication by a sparse matrix. -/
def oSparse {R : ℕ} (e : (Fin (R + 1) → ZMod p) × (Fin R → ZMod p)) (x : Fin (R + 1) → ZMod p) : Fin (R + 1) → ZMod p :=
  Fin.cases (∑ j, x j * e.1 j) (fun i => x 0 * e.2 i + x i.succ)

theorem dot_ofFn {n : ℕ} (x y : Fin n → ZMod p) : dot (List.ofFn x) (List.ofFn y) = ∑ i, x i * y i := by
  induction n with
  | zero => simp [dot]
  | succ n ih =>
    rw [List.ofFn_succ, List.ofFn_succ, Fin.sum_univ_succ, ← ih]
    simp [dot]

theorem zipWith_ofFn {α β γ : Type} {n : ℕ} (f : α → β → γ) (x : Fin n → α) (y : Fin n → β) :
    List.zipWith f (List.ofFn x) (List.ofFn y) = List.ofFn (fun i => f (x i) (y i)) := by
  induction n with
  | zero => simp
  | succ n ih => simp only [List.ofFn_succ, List.zipWith_cons_cons, ih]

theorem addv_ofFn {n : ℕ} (x y : Fin n → ZMod p) : addv (List.ofFn x) (List.ofFn y) = List.ofFn (x + y) :=
  zipWith_ofFn _ _ _

theorem nSbox_ofFn {n : ℕ} (x c : Fin n → ZMod p) : nSbox (List.ofFn x) (List.ofFn c) = List.ofFn (oSbox c x) :=
  zipWith_ofFn _ _ _

theorem nSboxPart_ofFn {R : ℕ} (x : Fin (R + 1) → ZMod p) (c : ZMod p) :
    nSboxPart (List.ofFn x) c = List.ofFn (oPart c x) := by
  rw [List.ofFn_succ, List.ofFn_succ]; rfl

theorem nMds_ofFn {n : ℕ} (m : Mat p n) (x : Fin n → ZMod p) : nMds (matRows m) (List.ofFn x) = List.ofFn (m.mulVec x) := by
  unfold nMds matRows
  rw [List.map_ofFn]
  congr 1
  funext i
  simp only [Function.comp, dot_ofFn, Matrix.mulVec, dotProduct]
  exact Finset.sum_congr rfl fun j _ => mul_comm _ _

theorem nSparse_ofFn {R : ℕ} (e : (Fin (R + 1) → ZMod p) × (Fin R → ZMod p)) (x : Fin (R + 1) → ZMod p) :
    nSparse ⟨List.ofFn e.1, List.ofFn e.2⟩ (List.ofFn x) = List.ofFn (oSparse e x) := by
  unfold nSparse
  rw [dot_ofFn]
  conv_rhs => rw [List.ofFn_succ]
  congr 1
  rw [List.ofFn_succ (f := x), List.tail_cons, zipWith_ofFn]
  simp [oSparse]

theorem nFull_ofFn {n : ℕ} (m : Mat p n) (cs : List (Fin n → ZMod p)) (x : Fin n → ZMod p) :
    nFull (matRows m) (cs.map List.ofFn) (List.ofFn x) =
      List.ofFn (cs.foldl (fun z c => m.mulVec (oSbox c z)) x) := by
  induction cs generalizing x with
  | nil => rfl
  | cons c cs ih =>
    rw [List.foldl_cons, ← ih, List.map_cons]
    unfold nFull
    rw [List.foldl_cons, nSbox_ofFn, nMds_ofFn]

theorem nPart_ofFn {R : ℕ} (l : List (ZMod p × ((Fin (R + 1) → ZMod p) × (Fin R → ZMod p)))) (x : Fin (R + 1) → ZMod p) :
    nPart (l.map (fun e => (e.1, ⟨List.ofFn e.2.1, List.ofFn e.2.2⟩))) (List.ofFn x) =
      List.ofFn (l.foldl (fun z e => oSparse e.2 (oPart e.1 z)) x) := by
  induction l generalizing x with
  | nil => rfl
  | cons e l ih =>
    rw [List.foldl_cons, ← ih, List.map_cons]
    unfold nPart
    rw [List.foldl_cons]
    simp only [nSboxPart_ofFn, nSparse_ofFn]

/-! ### Full rounds -/

theorem mulVec_inv {n : ℕ} {m inv : Mat p n} (h : m * inv = 1) (v : Fin n → ZMod p) :
    m.mulVec (mulVector inv v) = v := by
  have : mulVector inv v = inv.mulVec v := rfl
  rw [this, Matrix.mulVec_mulVec, h, Matrix.one_mulVec]

theorem full_opt {R : ℕ} {m inv : Mat p (R + 1)} (h : m * inv = 1) (cs : List (Fin (R + 1) → ZMod p))
    (x c : Fin (R + 1) → ZMod p) (d : Fin (R + 1) → ZMod p) :
    m.mulVec (oSbox (mulVector inv d) ((cs.map (mulVector inv)).foldl (fun z c => m.mulVec (oSbox c z)) (x + c))) =
      (c :: cs).foldl (fullRound m) x + d := by
  have key : ∀ (x c d : Fin (R + 1) → ZMod p), m.mulVec (oSbox (mulVector inv d) (x + c)) = fullRound m x c + d := by
    intro x c d
    have : oSbox (mulVector inv d) (x + c) = (fun i => (x i + c i) ^ 5) + mulVector inv d := rfl
    rw [this, Matrix.mulVec_add, mulVec_inv h]
    rfl
  induction cs generalizing x c with
  | nil => exact key x c d
  | cons c' cs ih =>
    rw [List.map_cons, List.foldl_cons, key, ih]
    rfl

/-! ### Partial rounds: the constants -/

/-- A partial round with one constant, full matrix. -/
def oDense {R : ℕ} (m : Mat p (R + 1)) (z : Fin (R + 1) → ZMod p) (k : ZMod p) : Fin (R + 1) → ZMod p :=
  m.mulVec (oPart k z)

theorem partLoop_spec {R : ℕ} {m inv : Mat p (R + 1)} (h : m * inv = 1) (l : List (Fin (R + 1) → ZMod p))
    (acc : Fin (R + 1) → ZMod p) (parts : List (ZMod p)) :
    ∃ q, (partLoop inv l acc parts).2 = q ++ parts ∧ q.length = l.length ∧
      ∀ y, q.foldl (oDense m) (y + (partLoop inv l acc parts).1) = l.reverse.foldl (partRound m) y + acc := by
  induction l generalizing acc parts with
  | nil => exact ⟨[], rfl, rfl, fun y => rfl⟩
  | cons c l ih =>
    obtain ⟨q, h1, h2, h3⟩ := ih (fun i => (if i = 0 then 0 else mulVector inv acc i) + c i) (mulVector inv acc 0 :: parts)
    refine ⟨q ++ [mulVector inv acc 0], ?_, by simp [h2], fun y => ?_⟩
    · rw [List.append_assoc, List.singleton_append]; exact h1
    · have e : (partLoop inv (c :: l) acc parts).1 =
        (partLoop inv l (fun i => (if i = 0 then 0 else mulVector inv acc i) + c i) (mulVector inv acc 0 :: parts)).1 := rfl
      rw [e, List.foldl_append, h3, List.reverse_cons, List.foldl_append]
      simp only [List.foldl_cons, List.foldl_nil]
      generalize List.foldl (partRound m) y l.reverse = Y
      unfold oDense partRound
      have e2 : oPart (mulVector inv acc 0) (Y + fun i => (if i = 0 then 0 else mulVector inv acc i) + c i) =
          (fun i => if i = 0 then (Y i + c i) ^ 5 else Y i + c i) + mulVector inv acc := by
        funext i
        refine Fin.cases ?_ (fun i => ?_) i
        · simp [oPart]
        · simp [oPart, Fin.succ_ne_zero]; ring
      rw [e2, Matrix.mulVec_add, mulVec_inv h]

/-! ### Partial rounds: the matrices -/

theorem allSome_spec {α : Type} {n : ℕ} {f : Fin n → Option α} {g : Fin n → α} :
    allSome f = some g ↔ ∀ i, f i = some (g i) := by
  induction n with
  | zero =>
    constructor
    · intro _ i; exact i.elim0
    · intro _
      simp only [allSome, Option.some.injEq]
      funext i; exact i.elim0
  | succ n ih =>
    simp only [allSome, Option.bind_eq_bind, Option.bind_eq_some_iff, Option.pure_def, Option.some.injEq]
    constructor
    · rintro ⟨a, ha, g', hg', rfl⟩ i
      refine Fin.cases ha (fun i => ?_) i
      exact ih.1 hg' i
    · intro h
      refine ⟨g 0, h 0, fun i => g i.succ, ih.2 fun i => h i.succ, ?_⟩
      funext i
      refine Fin.cases rfl (fun i => rfl) i

theorem wHat_spec {R : ℕ} {m : Mat p (R + 1)} {w : Fin R → ZMod p} (h : wHat m = some w) :
    (hat m).mulVec w = fun i => m i.succ 0 := by
  simp only [wHat, determinant_eq, Option.bind_eq_bind, Option.bind_eq_some_iff] at h
  obtain ⟨d, hd, di, hdi, hw⟩ := h
  rw [allSome_spec] at hw
  by_cases hz : (hat m).det = 0
  · rw [if_pos hz] at hd; exact absurd hd (by simp)
  rw [if_neg hz, Option.some.injEq] at hd
  subst hd
  rw [invOpt, if_neg hz, Option.some.injEq] at hdi
  subst hdi
  have hw' : w = ((hat m).det)⁻¹ • Matrix.cramer (hat m) (fun i => m i.succ 0) := by
    funext j
    have hj := hw j
    have e : (fun (i k : Fin R) => if k = j then m i.succ 0 else hat m i k) = (hat m).updateCol j (fun i => m i.succ 0) := by
      funext i k
      rw [Matrix.updateCol_apply]
    rw [e, determinant_eq] at hj
    split at hj
    · exact absurd hj (by simp)
    · simp only [Option.map_some, Option.some.injEq] at hj
      rw [← hj, Pi.smul_apply, Matrix.cramer_apply, smul_eq_mul, mul_comm]
  rw [hw', Matrix.mulVec_smul, Matrix.mulVec_cramer, smul_smul, inv_mul_cancel₀ hz, one_smul]

/-- The transposed factorisation `mᵀ = sparse · primeᵀ`. -/
theorem factorise_spec {R : ℕ} {m mp : Mat p (R + 1)} {s : (Fin (R + 1) → ZMod p) × (Fin R → ZMod p)}
    (h : factorise m = some (mp, s)) (x : Fin (R + 1) → ZMod p) :
    m.transpose.mulVec x = oSparse s (mp.transpose.mulVec x) ∧ mp = primeMat (hat m) := by
  simp only [factorise, Option.bind_eq_bind, Option.bind_eq_some_iff, Option.pure_def, Option.some.injEq, Prod.mk.injEq] at h
  obtain ⟨w, hw, rfl, rfl⟩ := h
  refine ⟨?_, rfl⟩
  have hw' := wHat_spec hw
  have hp0 : ((primeMat (hat m)).transpose.mulVec x) 0 = x 0 := by
    simp [Matrix.mulVec, dotProduct, Fin.sum_univ_succ, primeMat]
  have hps : ∀ i : Fin R, ((primeMat (hat m)).transpose.mulVec x) i.succ = ∑ k, hat m k i * x k.succ := by
    intro i
    simp [Matrix.mulVec, dotProduct, Fin.sum_univ_succ, primeMat]
  funext i
  refine Fin.cases ?_ (fun i => ?_) i
  · simp only [oSparse, Fin.cases_zero]
    rw [Fin.sum_univ_succ, hp0]
    simp only [hps, Fin.cases_zero, Fin.cases_succ]
    have e : ∀ k : Fin R, m k.succ 0 = ∑ i, hat m k i * w i := fun k => (congrFun hw' k).symm
    simp only [Matrix.mulVec, dotProduct, Fin.sum_univ_succ, Matrix.transpose_apply, e]
    rw [mul_comm]
    congr 1
    simp only [Finset.sum_mul]
    rw [Finset.sum_comm]
    refine Finset.sum_congr rfl fun i _ => Finset.sum_congr rfl fun k _ => by ring
  · simp only [oSparse, Fin.cases_succ]
    rw [hp0, hps]
    simp only [Matrix.mulVec, dotProduct, Fin.sum_univ_succ, Matrix.transpose_apply, hat]
    ring

/-- `prime` leaves coordinate zero alone, so it commutes with the partial S-box. -/
theorem prime_comm {R : ℕ} (h : Mat p R) (k : ZMod p) (x : Fin (R + 1) → ZMod p) :
    (primeMat h).transpose.mulVec (oPart k x) = oPart k ((primeMat h).transpose.mulVec x) := by
  funext i
  refine Fin.cases ?_ (fun i => ?_) i
  · simp [Matrix.mulVec, dotProduct, Fin.sum_univ_succ, primeMat, oPart]
  · simp [Matrix.mulVec, dotProduct, Fin.sum_univ_succ, primeMat, oPart]

theorem matMul_eq {n : ℕ} (a b : Mat p n) : matMul a b = a * b := by
  funext i j; rw [Matrix.mul_apply]; rfl

theorem matT_eq {n : ℕ} (a : Mat p n) : matT a = a.transpose := rfl

/-- Full matrices, the last one being `acc` (`ks`: last round first). -/
def oOuter {R : ℕ} (mds acc : Mat p (R + 1)) (x : Fin (R + 1) → ZMod p) : List (ZMod p) → Fin (R + 1) → ZMod p
  | [] => acc.transpose.mulVec x
  | k :: ks => acc.transpose.mulVec (oPart k (ks.reverse.foldl (oDense mds) (mds.mulVec x)))

/-- The matrices: `l` (head applied last) with `acc'` first does what full matrices do, `acc` last. -/
theorem sparseLoop_spec {R : ℕ} (mds : Mat p (R + 1)) (n : ℕ) (acc acc' : Mat p (R + 1))
    (l : List ((Fin (R + 1) → ZMod p) × (Fin R → ZMod p))) (h : sparseLoop (matT mds) n acc = some (l, acc'))
    (ks : List (ZMod p)) (hk : ks.length = n) (x : Fin (R + 1) → ZMod p) :
    l.length = n ∧
    (ks.reverse.zip l.reverse).foldl (fun z e => oSparse e.2 (oPart e.1 z)) (acc'.transpose.mulVec x) =
      oOuter mds acc x ks := by
  induction n generalizing acc l ks with
  | zero =>
    simp only [sparseLoop, Option.some.injEq, Prod.mk.injEq] at h
    obtain ⟨rfl, rfl⟩ := h
    have : ks = [] := by simpa using hk
    subst this
    exact ⟨rfl, rfl⟩
  | succ n ih =>
    cases ks with
    | nil => simp at hk
    | cons k ks =>
      simp only [sparseLoop, Option.bind_eq_bind, Option.bind_eq_some_iff, Option.pure_def, Option.some.injEq,
        Prod.mk.injEq, Prod.exists] at h
      obtain ⟨mp, s1, s2, hf, l', a', hl, rfl, rfl⟩ := h
      have hk' : ks.length = n := by simpa using hk
      obtain ⟨h1, h2⟩ := ih _ _ hl ks hk'
      refine ⟨by simp [h1], ?_⟩
      rw [List.reverse_cons, List.reverse_cons, List.zip_append (by simp [h1, hk']), List.foldl_append, h2]
      simp only [List.zip_cons_cons, List.zip_nil_right, List.foldl_cons, List.foldl_nil]
      rw [oOuter]
      obtain ⟨-, hmp⟩ := factorise_spec hf x
      rw [(factorise_spec hf _).1]
      congr 1
      have hT : (matMul (matT mds) mp).transpose = mp.transpose * mds := by
        rw [matMul_eq, matT_eq, Matrix.transpose_mul, Matrix.transpose_transpose]
      conv_rhs => rw [hmp, prime_comm, ← hmp]
      congr 1
      cases ks with
      | nil => simp [oOuter, Matrix.mulVec_mulVec, hT]
      | cons k' ks' =>
        rw [List.reverse_cons, List.foldl_append]
        simp only [List.foldl_cons, List.foldl_nil, oOuter, hT, ← Matrix.mulVec_mulVec]
        rfl

theorem calcSparse_spec {R : ℕ} {mds pre : Mat p (R + 1)} {rP : ℕ}
    {l : List ((Fin (R + 1) → ZMod p) × (Fin R → ZMod p))} (h : calcSparse rP mds = some (l, pre))
    (ks : List (ZMod p)) (hk : ks.length = rP) (x : Fin (R + 1) → ZMod p) :
    l.length = rP ∧
    (ks.zip l).foldl (fun z e => oSparse e.2 (oPart e.1 z)) (pre.mulVec x) = ks.foldl (oDense mds) (mds.mulVec x) := by
  simp only [calcSparse, Option.bind_eq_bind, Option.bind_eq_some_iff, Option.pure_def, Option.some.injEq,
    Prod.mk.injEq, Prod.exists] at h
  obtain ⟨l', a', hl, rfl, rfl⟩ := h
  obtain ⟨h1, h2⟩ := sparseLoop_spec mds rP _ _ _ hl ks.reverse (by simpa using hk) x
  refine ⟨by simp [h1], ?_⟩
  rw [List.reverse_reverse] at h2
  rw [matT_eq, h2]
  cases hr : ks.reverse with
  | nil =>
    have : ks = [] := by simpa using hr
    subst this
    simp [oOuter, matT_eq]
  | cons k ks' =>
    have : ks = ks'.reverse ++ [k] := by rw [← List.reverse_reverse ks, hr]; simp
    rw [this, List.foldl_append]
    simp only [List.foldl_cons, List.foldl_nil, oOuter, matT_eq, Matrix.transpose_transpose]
    rfl

/-! ### The whole permutation -/

theorem calcConsts_some {R : ℕ} {rF rP : ℕ} {cs : List (Fin (R + 1) → ZMod p)} {inv : Mat p (R + 1)}
    {c : OptConsts p (R + 1)} (h : calcConsts rF rP cs inv = some c) :
    cs.length = rF + rP ∧ 1 ≤ rF / 2 ∧ ∃ c0 acc, cs[0]? = some c0 ∧ cs[rF / 2 + rP]? = some acc ∧
      c = ⟨(c0 :: ((cs.drop 1).take (rF / 2 - 1)).map (mulVector inv)) ++
        [mulVector inv (partLoop inv (((cs.drop (rF / 2)).reverse.drop (rF / 2)).take rP) acc []).1],
        (partLoop inv (((cs.drop (rF / 2)).reverse.drop (rF / 2)).take rP) acc []).2,
        ((cs.drop (rF / 2 + rP + 1)).take (rF / 2 - 1)).map (mulVector inv)⟩ := by
  unfold calcConsts at h
  dsimp only at h
  split at h
  · exact absurd h (by simp)
  · split at h
    · exact absurd h (by simp)
    · rename_i h1 h2
      simp only [Option.bind_eq_bind, Option.bind_eq_some_iff, Option.pure_def, Option.some.injEq] at h
      obtain ⟨c0, hc0, acc, hacc, rfl⟩ := h
      exact ⟨not_not.1 h1, by omega, c0, acc, hc0, hacc, rfl⟩

theorem newSpec_wf {R : ℕ} {rF rP : ℕ} {cs : List (Fin (R + 1) → ZMod p)} {mds inv : Mat p (R + 1)} {sp : PSpec p}
    (h : newSpec rF rP cs mds inv = some sp) : WFSpec sp (R + 1) := by
  simp only [newSpec, Option.bind_eq_bind, Option.bind_eq_some_iff, Option.pure_def, Option.some.injEq] at h
  obtain ⟨c, hc, s, hs, rfl⟩ := h
  obtain ⟨-, hF, c0, acc, -, -, rfl⟩ := calcConsts_some hc
  constructor
  · simp [matRows]
  · simp [matRows]
  · simp [matRows]
  · simp [matRows]
  · simp only [List.mem_map, forall_exists_index, and_imp, forall_apply_eq_imp_iff₂]
    simp
  · intro c hc
    obtain ⟨v, -, rfl⟩ := List.mem_map.1 hc
    simp
  · intro c hc
    obtain ⟨v, -, rfl⟩ := List.mem_map.1 hc
    simp
  · simp
  · exact hF
  · exact Nat.succ_le_succ (Nat.zero_le _)

/-- The optimised permutation is the textbook permutation. -/
theorem newSpec_perm {R : ℕ} {rF rP : ℕ} {cs : List (Fin (R + 1) → ZMod p)} {mds inv : Mat p (R + 1)} {sp : PSpec p}
    (h : newSpec rF rP cs mds inv = some sp) (he : Even rF) (hinv : mds * inv = 1) (x : Fin (R + 1) → ZMod p) :
    nPerm sp (List.ofFn x) = List.ofFn (poseidonPerm rF rP mds cs x) := by
  simp only [newSpec, Option.bind_eq_bind, Option.bind_eq_some_iff, Option.pure_def, Option.some.injEq] at h
  obtain ⟨c, hc, s, hs, rfl⟩ := h
  obtain ⟨hlen, hF, c0, acc, hc0, hacc, rfl⟩ := calcConsts_some hc
  obtain ⟨hf, hhf⟩ : ∃ k, rF / 2 = k := ⟨_, rfl⟩
  have hrF : rF = hf + hf := by obtain ⟨k, rfl⟩ := he; omega
  rw [hhf] at hF hacc
  simp only [nPerm, nRounds, hhf]
  set l := ((cs.drop hf).reverse.drop hf).take rP with hl
  obtain ⟨q, hq1, hq2, hq3⟩ := partLoop_spec hinv l acc []
  rw [List.append_nil] at hq1
  have hcs0 : cs = c0 :: cs.drop 1 := by
    cases cs with
    | nil => simp at hc0
    | cons a cs => simp at hc0; simp [hc0]
  have hl' : l = ((cs.drop hf).take rP).reverse := by
    rw [hl, List.drop_reverse, List.length_drop, hlen]
    have : rF + rP - hf - hf = rP := by omega
    rw [this, List.take_of_length_le]
    simp
  have hll : l.length = rP := by rw [hl']; simp [hlen]; omega
  have hmid : ((cs.drop 1).take (hf - 1)).length = hf - 1 := by simp [hlen]; omega
  -- the pieces of `start`
  simp only [List.map_append, List.map_cons, List.map_nil, List.cons_append, List.headD_cons, List.drop_succ_cons,
    List.drop_zero]
  rw [List.take_left' (by rw [List.length_map, List.length_map, hmid])]
  rw [show ∀ (a : List (ZMod p)) (b : List (List (ZMod p))) (c : List (ZMod p)), (a :: (b ++ [c])).getLastD [] = c from
    fun a b c => by rw [← List.cons_append, List.getLastD_eq_getLast?, List.getLast?_concat]; rfl]
  rw [addv_ofFn, nFull_ofFn, nSbox_ofFn, nMds_ofFn]
  -- partial rounds
  obtain ⟨hsl, hsp⟩ := calcSparse_spec (l := s.1) (pre := s.2) hs q (by rw [hq2, hll])
    (oSbox (mulVector inv (partLoop inv l acc []).1)
      (List.foldl (fun z c => mds.mulVec (oSbox c z)) (x + c0) ((((cs.drop 1).take (hf - 1))).map (mulVector inv))))
  rw [hq1, List.zip_map_right]
  have hz : (List.map (Prod.map id fun (e : (Fin (R + 1) → ZMod p) × (Fin R → ZMod p)) =>
      (⟨List.ofFn e.1, List.ofFn e.2⟩ : SparseMDS p)) (q.zip s.1)) =
      (q.zip s.1).map (fun e => (e.1, ⟨List.ofFn e.2.1, List.ofFn e.2.2⟩)) := rfl
  rw [hz, nPart_ofFn, hsp, full_opt hinv, hq3, hl', List.reverse_reverse]
  -- ending rounds
  rw [nFull_ofFn]
  rw [show List.replicate (List.ofFn (n := R + 1) (fun i => (List.foldl (fun z c => mds.mulVec (oSbox c z))
      (List.foldl (partRound mds) (List.foldl (fullRound mds) x (c0 :: List.take (hf - 1) (List.drop 1 cs)))
        (List.take rP (List.drop hf cs)) + acc)
      (List.map (mulVector inv) (List.take (hf - 1) (List.drop (hf + rP + 1) cs)))) i)).length (0 : ZMod p) =
      List.ofFn (mulVector inv (0 : Fin (R + 1) → ZMod p)) from by
    rw [List.length_ofFn, ← List.ofFn_const]
    congr 1
    funext i
    simp [mulVector]]
  rw [nSbox_ofFn, nMds_ofFn, full_opt hinv, add_zero]
  congr 1
  unfold poseidonPerm
  simp only [hhf]
  have e1 : c0 :: List.take (hf - 1) (List.drop 1 cs) = cs.take hf := by
    conv_rhs => rw [hcs0]
    obtain ⟨k, rfl⟩ : ∃ k, hf = k + 1 := ⟨hf - 1, by omega⟩
    rfl
  have e2 : acc :: List.take (hf - 1) (List.drop (hf + rP + 1) cs) = cs.drop (hf + rP) := by
    obtain ⟨hlt, hget⟩ := List.getElem?_eq_some_iff.1 hacc
    rw [List.drop_eq_getElem_cons hlt, hget, List.take_of_length_le]
    simp [hlen]; omega
  rw [e1, e2]

end H2
