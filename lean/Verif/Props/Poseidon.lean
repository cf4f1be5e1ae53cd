import Verif.Poseidon.SpecEquiv
import Verif.Poseidon.SoundHash
import Verif.Poseidon.Complete
import Verif.Poseidon.Rel
import Verif.Props.Modes
import Verif.Props.SafeTypes

/-!
# Properties C39 - C41, C58 (Poseidon)

Reading guide: see `Verif/Props/Gate.lean`.  The specification is in `Verif/Poseidon/Spec.lean` (`fullRound`, `partRound`,
`poseidonPerm`: the textbook permutation) and `Verif/Poseidon/Sponge.lean` (`pad10`, `spongeAbsorb`, `spongeInit`,
`spongeHash`: the textbook sponge over any permutation).  `textPerm` below is `poseidonPerm` on lists.
-/

set_option autoImplicit false
set_option linter.unusedSectionVars false
namespace H2
variable {p : ℕ} [Fact p.Prime] {tbl : ZMod p → Prop} {ext : Cell → ZMod p} {s s' : Ctx p} {w : Cell → ZMod p}
  {L R rF rP : ℕ}

/-- The textbook permutation on lists of `R + 1` elements. -/
def textPerm {R : ℕ} (rF rP : ℕ) (mds : Mat p (R + 1)) (cs : List (Fin (R + 1) → ZMod p)) (l : List (ZMod p)) :
    List (ZMod p) := List.ofFn (poseidonPerm rF rP mds cs (fun i => l.getD i 0))

/-- What `OptimizedPoseidonSpec::new` gets and returns: the spec `sp` was generated from the round constants `cs`, the
MDS matrix and its inverse, with an even number of full rounds. -/
structure IsSpec {R : ℕ} (rF rP : ℕ) (cs : List (Fin (R + 1) → ZMod p)) (mds inv : Mat p (R + 1)) (sp : PSpec p) :
    Prop where
  eq : newSpec rF rP cs mds inv = some sp
  even : Even rF
  inv : mds * inv = 1

variable {cs : List (Fin (R + 1) → ZMod p)} {mds inv : Mat p (R + 1)} {sp : PSpec p}

theorem ofFn_getD {n : ℕ} (l : List (ZMod p)) (h : l.length = n) : List.ofFn (fun i : Fin n => l.getD i 0) = l := by
  subst h
  apply List.ext_getElem
  · simp
  · intro i h1 h2
    rw [List.getElem_ofFn]
    change l.getD i 0 = _
    rw [List.getD, List.getElem?_eq_getElem h2]
    rfl

theorem IsSpec.wf (h : IsSpec rF rP cs mds inv sp) : WFSpec sp (R + 1) := newSpec_wf h.eq

theorem IsSpec.perm (h : IsSpec rF rP cs mds inv sp) (l : List (ZMod p)) (hl : l.length = R + 1) :
    nPerm sp l = textPerm rF rP mds cs l := by
  conv_lhs => rw [← ofFn_getD l hl]
  exact newSpec_perm h.eq h.even h.inv _

theorem spongeAbsorb_congr {f g : List (ZMod p) → List (ZMod p)} (hR : 1 ≤ R)
    (h : ∀ l, l.length = R + 1 → f l = g l) (hl : ∀ l, (f l).length = R + 1)
    (st xs : List (ZMod p)) (hst : st.length = R + 1) : spongeAbsorb f R st xs = spongeAbsorb g R st xs := by
  unfold spongeAbsorb
  have hb : ∀ c ∈ chunksOf R (pad10 R xs), c.length ≤ R := (chunksOf_spec hR _).1
  have hb' : ∀ c ∈ chunksOf R (pad10 R xs), c.length = R := by
    obtain ⟨bs, h1, h2⟩ : ∃ bs : List (List (ZMod p)), (∀ b ∈ bs, b.length = R) ∧ pad10 R xs = bs.flatten := by
      obtain ⟨n, hn⟩ : ∃ n, xs.length ≤ n := ⟨_, le_rfl⟩
      clear hb
      induction n generalizing xs with
      | zero =>
        have : xs = [] := by simpa using hn
        subst this
        exact ⟨[padBlock R []], by simp [padBlock_length], by rw [pad10_small hR (by simp; omega)]; simp⟩
      | succ n ih =>
        by_cases hx : xs.length < R
        · exact ⟨[padBlock R xs], by simp [padBlock_length], by rw [pad10_small hR hx]; simp⟩
        · obtain ⟨bs, h1, h2⟩ := ih (xs.drop R) (by simp; omega)
          refine ⟨xs.take R :: bs, ?_, ?_⟩
          · intro b hb
            rcases List.mem_cons.1 hb with rfl | hb
            · simp; omega
            · exact h1 b hb
          · rw [pad10_drop (by omega), h2, List.flatten_cons]
    rw [h2]
    clear h2 hb
    have : chunksOf R bs.flatten = bs := by
      induction bs with
      | nil => rfl
      | cons b bs ih =>
        rw [List.flatten_cons, chunksOf_append hR (h1 b (by simp)), ih fun b h => h1 b (by simp [h])]
    rw [this]
    exact h1
  clear hb
  generalize chunksOf R (pad10 R xs) = chunks at hb'
  induction chunks generalizing st with
  | nil => rfl
  | cons c chunks ih =>
    rw [List.foldl_cons, List.foldl_cons]
    have e : (addv st (0 :: c)).length = R + 1 := by
      rw [addv_length, hst]
      rw [hst, List.length_cons, hb' c (by simp)]
    rw [h _ e]
    exact ih _ (by rw [← h _ e]; exact hl _) fun c h => hb' c (by simp [h])

theorem IsSpec.absorb (h : IsSpec rF rP cs mds inv sp) (hR : 1 ≤ R) (st xs : List (ZMod p)) (hst : st.length = R + 1) :
    spongeAbsorb (nPerm sp) R st xs = spongeAbsorb (textPerm rF rP mds cs) R st xs :=
  spongeAbsorb_congr hR h.perm (nPerm_length h.wf) _ _ hst

theorem IsSpec.hash (h : IsSpec rF rP cs mds inv sp) (hR : 1 ≤ R) (xs : List (ZMod p)) :
    spongeHash (nPerm sp) R xs = spongeHash (textPerm rF rP mds cs) R xs := by
  unfold spongeHash; rw [h.absorb hR _ _ (spongeInit_length R)]

/-! ## C40: the optimised parameters -/

/-- C40: the permutation with the constants and matrices of `OptimizedPoseidonSpec::new` is the textbook permutation,
for every width, number of rounds, round constants, MDS matrix and state. -/
theorem C40_optimised_eq_textbook (h : newSpec rF rP cs mds inv = some sp) (he : Even rF) (hinv : mds * inv = 1)
    (x : Fin (R + 1) → ZMod p) : nPerm sp (List.ofFn x) = List.ofFn (poseidonPerm rF rP mds cs x) :=
  newSpec_perm h he hinv x

/-- C40: Gaussian elimination in `determinant` computes the determinant and panics exactly on singular matrices. -/
theorem C40_determinant {n : ℕ} (m : Mat p n) : determinant m = if m.det = 0 then none else some m.det :=
  determinant_eq m

/-- C40: a successful `factorise` is a factorisation: `m = m_prime · m_prime_prime`, where `m_prime` only acts on the
last `RATE` coordinates and `m_prime_prime = [[m_0_0, col_hat], [row[1..], identity]]`. -/
theorem C40_factorise {m mp : Mat p (R + 1)} {row : Fin (R + 1) → ZMod p} {col : Fin R → ZMod p}
    (h : factorise m = some (mp, row, col)) :
    m = mp * Matrix.of (fun i j => Fin.cases (Fin.cases (m 0 0) col j)
      (fun i' => Fin.cases (row i'.succ) (fun j' => if i' = j' then 1 else 0) j) i) ∧
    mp 0 0 = 1 ∧ (∀ j : Fin R, mp 0 j.succ = 0) ∧ (∀ i : Fin R, mp i.succ 0 = 0) ∧ row 0 = m 0 0 := by
  simp only [factorise, Option.bind_eq_bind, Option.bind_eq_some_iff, Option.pure_def, Option.some.injEq, Prod.mk.injEq] at h
  obtain ⟨w, hw, rfl, rfl, rfl⟩ := h
  refine ⟨?_, rfl, fun j => rfl, fun j => rfl, rfl⟩
  have hw' := wHat_spec hw
  funext i j
  rw [Matrix.mul_apply, Fin.sum_univ_succ]
  refine Fin.cases ?_ (fun i => ?_) i
  · refine Fin.cases ?_ (fun j => ?_) j
    · simp [primeMat]
    · simp [primeMat]
  · refine Fin.cases ?_ (fun j => ?_) j
    · have := congrFun hw' i
      simp only [Matrix.mulVec, dotProduct] at this
      simp [primeMat, ← this]
    · simp [primeMat, hat]

/-- C40: when `factorise` succeeds: the lower right block is invertible and *no* entry of `w_hat` is zero. -/
theorem C40_factorise_panics_iff (m : Mat p (R + 1)) :
    factorise m = none ↔ (hat m).det = 0 ∨ ∃ j, ((hat m).updateCol j (fun i => m i.succ 0)).det = 0 := by
  have e : ∀ j : Fin R, (fun (i k : Fin R) => if k = j then m i.succ 0 else hat m i k) =
      (hat m).updateCol j (fun i => m i.succ 0) := by
    intro j
    funext i k
    rw [Matrix.updateCol_apply]
  unfold factorise wHat
  simp only [determinant_eq, e]
  by_cases hz : (hat m).det = 0
  · simp [hz]
  · simp only [hz, if_false, Option.bind_eq_bind, Option.bind_some, invOpt, false_or]
    constructor
    · intro hn
      by_contra hne
      push Not at hne
      have : allSome (fun j : Fin R => Option.map (fun x => x * ((hat m).det)⁻¹)
          (if ((hat m).updateCol j (fun i => m i.succ 0)).det = 0 then none
            else some ((hat m).updateCol j (fun i => m i.succ 0)).det)) =
          some (fun j => ((hat m).updateCol j (fun i => m i.succ 0)).det * ((hat m).det)⁻¹) :=
        allSome_spec.2 fun j => by rw [if_neg (hne j)]; rfl
      rw [this] at hn
      exact absurd hn (by simp)
    · rintro ⟨j, hj⟩
      cases ha : allSome (fun j : Fin R => Option.map (fun x => x * ((hat m).det)⁻¹)
          (if ((hat m).updateCol j (fun i => m i.succ 0)).det = 0 then none
            else some ((hat m).updateCol j (fun i => m i.succ 0)).det)) with
      | none => rfl
      | some g =>
        have := allSome_spec.1 ha j
        rw [if_pos hj] at this
        exact absurd this (by simp)

/-- Finding (C40): `factorise` panics on matrices that do have the factorisation, because a zero entry of `w_hat` makes
`determinant` panic.  Here the lower right block is the identity, the whole matrix is invertible, and
`w_hat = (1, 0)`. -/
theorem C40_factorise_finding :
    let m : Mat 101 3 := Matrix.of ![![2, 3, 4], ![1, 1, 0], ![0, 0, 1]]
    factorise m = none ∧ (hat m).det ≠ 0 ∧ m.det ≠ 0 ∧
      m = primeMat (hat m) * Matrix.of ![![2, 3, 4], ![1, 1, 0], ![0, 0, 1]] := by
  intro m
  have h1 : (hat m).det = 1 := by
    rw [Matrix.det_fin_two]; decide +kernel
  have h2 : m.det ≠ 0 := by
    rw [Matrix.det_fin_three]; decide +kernel
  refine ⟨?_, by rw [h1]; exact one_ne_zero, h2, ?_⟩
  · rw [C40_factorise_panics_iff]
    refine Or.inr ⟨1, ?_⟩
    rw [Matrix.det_fin_two]; decide +kernel
  · ext i j
    rw [Matrix.mul_apply, Fin.sum_univ_three]
    fin_cases i <;> fin_cases j <;> decide +kernel

/-! A concrete spec: width 3, `R_F = 4`, `R_P = 2`, over `Z/101`. -/

/-- An MDS matrix (Cauchy-like) and its inverse, and round constants. -/
def mds101 : Mat 101 3 := Matrix.of ![![2, 3, 5], ![7, 1, 4], ![6, 8, 9]]

def inv101 : Mat 101 3 := Matrix.of ![![81, 64, 50], ![10, 73, 63], ![83, 72, 23]]

def cs101 : List (Fin 3 → ZMod 101) := [![1, 2, 3], ![4, 5, 6], ![7, 8, 9], ![10, 11, 12], ![13, 14, 15], ![16, 17, 18]]

theorem mul101 : mds101 * inv101 = 1 := by
  ext i j
  rw [Matrix.mul_apply, Fin.sum_univ_three]
  fin_cases i <;> fin_cases j <;> decide +kernel

theorem newSpec101 : (newSpec 4 2 cs101 mds101 inv101).isSome = true := by decide +kernel

/-- The spec generated from these parameters. -/
def sp101 : PSpec 101 := (newSpec 4 2 cs101 mds101 inv101).get newSpec101

theorem isSpec101 : IsSpec (R := 2) 4 2 cs101 mds101 inv101 sp101 :=
  ⟨(Option.some_get newSpec101).symm, by decide, mul101⟩

example (x : Fin 3 → ZMod 101) : nPerm sp101 (List.ofFn x) = List.ofFn (poseidonPerm 4 2 mds101 cs101 x) :=
  C40_optimised_eq_textbook isSpec101.eq isSpec101.even isSpec101.inv x

/-- The two permutations really agree on an evaluated input. -/
example : nPerm sp101 [1, 2, 3] = textPerm 4 2 mds101 cs101 [1, 2, 3] := isSpec101.perm _ rfl

/-! ## C39: the circuit permutation -/

/-- C39: in every satisfying assignment, the circuit permutation (with up to `RATE` absorbed inputs) maps the state
before to the textbook permutation of the state plus the padded inputs. -/
theorem C39_permutation (h : IsSpec rF rP cs mds inv sp) {st is rs : List (AV p)} (hi : Inv s) (hst : st.length = R + 1)
    (hrun : permutation sp R st is none s = some (rs, s')) (hw : Sat tbl s' w) :
    rs.map (at' w) = textPerm rF rP mds cs (addv (st.map (at' w)) (0 :: padBlock R (is.map (at' w)))) := by
  have := ((permutation_sound_none h.wf R st is hst).run hi hrun hw).2
  rw [this, nAbsorbPerm, h.perm]
  · simp [hst]
  · rw [addv_length] <;> simp [hst, padBlock_length]

/-- C39: with a circuit-value length, the absorbed inputs are the first `len`. -/
theorem C39_permutation_var_len (h : IsSpec rF rP cs mds inv sp) (hR : 1 ≤ R) (hRp : R < p) {st is rs : List (AV p)}
    {len : AV p} (hi : Inv s) (hst : st.length = R + 1) (his : is.length = R)
    (hrun : permutation sp R st is (some len) s = some (rs, s')) (hw : Sat tbl s' w) (hlen : (at' w len).val ≤ R) :
    rs.map (at' w) =
      textPerm rF rP mds cs (addv (st.map (at' w)) (0 :: padBlock R ((is.map (at' w)).take (at' w len).val))) := by
  have := (permutation_sound_some h.wf hR hRp st is len hst).run hi hrun hw hlen
  rw [this, nAbsorbPerm, h.perm]
  · congr 3
    rw [List.take_append_of_le_length (by simpa [his] using hlen)]
    simp [hst]
  · rw [addv_length] <;> simp [hst, padBlock_length]

theorem C39_permutation_complete (h : IsSpec rF rP cs mds inv sp) {st is : List (AV p)} {vs us : List (ZMod p)}
    (hg : Good tbl ext s) (hst : AvsCon ext s st vs) (his : AvsCon ext s is us) (hv : vs.length = R + 1)
    (hu : us.length ≤ R) :
    Completes tbl ext s (permutation sp R st is none) (fun rs s' => AvsCon ext s' rs
      (textPerm rF rP mds cs (addv vs (0 :: padBlock R us)))) := by
  refine ((permutation_cmp_none h.wf hst his hv (by omega)).weaken ?_).run hg
  intro r s' hr
  rw [nAbsorbPerm, h.perm] at hr
  · simpa [hv] using hr
  · rw [addv_length] <;> simp [hv, padBlock_length]

theorem C39_permutation_var_len_complete (h : IsSpec rF rP cs mds inv sp) (hR : 1 ≤ R) (hRp : R < p)
    {st is : List (AV p)} {vs us : List (ZMod p)} {len : AV p} {l : ℕ} (hg : Good tbl ext s) (hst : AvsCon ext s st vs)
    (his : AvsCon ext s is us) (hlen : Con ext s len ((l : ℕ) : ZMod p)) (hv : vs.length = R + 1)
    (hu : us.length = R) (hl : l ≤ R) :
    Completes tbl ext s (permutation sp R st is (some len)) (fun rs s' => AvsCon ext s' rs
      (textPerm rF rP mds cs (addv vs (0 :: padBlock R (us.take l))))) := by
  refine ((permutation_cmp_some h.wf hR hRp hst his hlen hv hl).weaken ?_).run hg
  intro r s' hr
  rw [nAbsorbPerm, h.perm, List.take_append_of_le_length (by omega)] at hr
  · simpa [hv] using hr
  · rw [addv_length] <;> simp [hv, padBlock_length]

/-- Five witnesses over `Z/101` (a state and two inputs). -/
def load5 : M 101 (List (AV 101) × List (AV 101)) := do
  let a ← loadWitness 3
  let b ← loadWitness 14
  let c ← loadWitness 15
  let d ← loadWitness 92
  let e ← loadWitness 65
  pure ([a, b, c], [d, e])

theorem load5_cmp {tbl : ZMod 101 → Prop} {ext : Cell → ZMod 101} {s : Ctx 101} :
    Cmp tbl ext s load5 (fun r s' => AvsCon ext s' r.1 [3, 14, 15] ∧ AvsCon ext s' r.2 [92, 65]) :=
  Cmp.bind (loadWitness_cmp _) fun _ _ _ h1 => Cmp.bind (loadWitness_cmp _) fun _ _ e2 h2 =>
    Cmp.bind (loadWitness_cmp _) fun _ _ e3 h3 => Cmp.bind (loadWitness_cmp _) fun _ _ e4 h4 =>
    Cmp.bind (loadWitness_cmp _) fun _ _ e5 h5 => Cmp.pure
      ⟨.cons ((((h1.mono e2).mono e3).mono e4).mono e5) (.cons (((h2.mono e3).mono e4).mono e5)
        (.cons ((h3.mono e4).mono e5) .nil)), .cons (h4.mono e5) (.cons h5 .nil)⟩

/-- A run of the circuit permutation that meets the hypotheses of `C39_permutation`. -/
example : Completes (fun _ => True) (fun _ => 0) ctx0
    (do let (st, is) ← load5; permutation sp101 2 st is none)
    (fun rs s' => AvsCon (fun _ => 0) s' rs (nAbsorbPerm sp101 [3, 14, 15] [92, 65])) :=
  (Cmp.bind load5_cmp fun r s' _ h => permutation_cmp_none isSpec101.wf h.1 h.2 rfl (by decide)).run good0

/-! ## C41: the hashers -/

/-- C41: a freshly initialised hasher holds the sponge's initial state and the hash of the empty input. -/
theorem C41_init (h : IsSpec rF rP cs mds inv sp) (hR : 1 ≤ R) {hs : Hasher p} (hi : Inv s)
    (hrun : Hasher.init sp (R + 1) R s = some (hs, s')) (hw : Sat tbl s' w) :
    hs.initState.map (at' w) = spongeInit R ∧
      at' w hs.emptyHash = spongeHash (textPerm rF rP mds cs) R [] := by
  obtain ⟨h1, h2⟩ := (Hasher.init_sound h.wf).run hi hrun hw
  exact ⟨h1, by rw [h2, h.hash hR]⟩

/-- The hasher `hs` was initialised earlier in the same context (other code may have run in between). -/
structure Initialised (sp : PSpec p) (R : ℕ) (hs : Hasher p) (s : Ctx p) : Prop where
  run : ∃ s0 s1, Inv s0 ∧ Hasher.init sp (R + 1) R s0 = some (hs, s1) ∧ Ext s1 s

theorem Initialised.ret {hs : Hasher p} (k : Initialised sp R hs s) : hs.spec = sp ∧ hs.initState.length = R + 1 := by
  obtain ⟨s0, s1, -, h, -⟩ := k.run
  exact Hasher.init_ret sp (R + 1) R s0 hs s1 h

theorem Initialised.ok {hs : Hasher p} (k : Initialised sp R hs s) (h : WFSpec sp (R + 1)) (e : Ext s s')
    (hw : Sat tbl s' w) : HasherOk sp R w hs := by
  obtain ⟨s0, s1, h0, h1, h2⟩ := k.run
  exact (Hasher.init_sound h).run h0 h1 (Sat.mono h2 (Sat.mono e hw))

/-- C41: `hash_fix_len_array` on an initialised hasher, used once or many times, is the sponge hash of its inputs. -/
theorem C41_fix_len (h : IsSpec rF rP cs mds inv sp) (hR : 1 ≤ R) {hs : Hasher p} (hinit : Initialised sp R hs s)
    (hi : Inv s) {is : List (AV p)} {r : AV p} (hrun : hs.hashFixLen R is s = some (r, s')) (hw : Sat tbl s' w) :
    at' w r = spongeHash (textPerm rF rP mds cs) R (is.map (at' w)) := by
  obtain ⟨rfl, e2⟩ := hinit.ret
  have hsnd : Sound tbl (hs.hashFixLen R is) _ := Hasher.hashFixLen_sound h.wf e2 is
  rw [hsnd.run hi hrun hw (hinit.ok h.wf (hsnd.extends_of hi hrun).2 hw), h.hash hR]

/-- C41: `hash_var_len_array` is the sponge hash of exactly the first `len` inputs, for every `len ≤ MAX_LEN`. -/
theorem C41_var_len (h : IsSpec rF rP cs mds inv sp) (hR : 1 ≤ R) (hRp : R < p) (hL : RangeOk p L) {hs : Hasher p}
    (hinit : Initialised sp R hs s) (hi : Inv s) {is : List (AV p)} {len r : AV p}
    (hok : is ≠ [] → DivModOk p L R (Nat.size is.length)) (hn : is.length + 1 < p)
    (hrun : hs.hashVarLen L R is len s = some (r, s')) (hw : Sat (RangeTable p L) s' w)
    (hlen : (at' w len).val ≤ is.length) :
    at' w r = spongeHash (textPerm rF rP mds cs) R ((is.map (at' w)).take (at' w len).val) := by
  obtain ⟨rfl, e2⟩ := hinit.ret
  have hsnd : Sound (RangeTable p L) (hs.hashVarLen L R is len) _ := Hasher.hashVarLen_sound h.wf e2 hR hRp hL is len hok hn
  rw [hsnd.run hi hrun hw (hinit.ok h.wf (hsnd.extends_of hi hrun).2 hw) hlen, h.hash hR]

/-- C41: the padding is ignored: two satisfying assignments that agree on `len` and on the first `len` inputs agree on
the hash, whatever they put in the padding. -/
theorem C41_padding_ignored (h : IsSpec rF rP cs mds inv sp) (hR : 1 ≤ R) (hRp : R < p) (hL : RangeOk p L) {hs : Hasher p}
    (hinit : Initialised sp R hs s) (hi : Inv s) {is : List (AV p)} {len r : AV p}
    (hok : is ≠ [] → DivModOk p L R (Nat.size is.length)) (hn : is.length + 1 < p)
    (hrun : hs.hashVarLen L R is len s = some (r, s')) {w w' : Cell → ZMod p} (hw : Sat (RangeTable p L) s' w)
    (hw' : Sat (RangeTable p L) s' w') (hlen : (at' w len).val ≤ is.length) (hl : at' w' len = at' w len)
    (heq : ∀ a ∈ is.take (at' w len).val, at' w' a = at' w a) : at' w' r = at' w r := by
  rw [C41_var_len h hR hRp hL hinit hi hok hn hrun hw hlen,
    C41_var_len h hR hRp hL hinit hi hok hn hrun hw' (by rw [hl]; exact hlen), hl, ← List.map_take, ← List.map_take,
    List.map_congr_left heq]

/-- C41: a variable-length hash and a fixed-length hash of the same elements are equal. -/
theorem C41_var_eq_fix (h : IsSpec rF rP cs mds inv sp) (hR : 1 ≤ R) (hRp : R < p) (hL : RangeOk p L) {hs : Hasher p}
    (hinit : Initialised sp R hs s) (hi : Inv s) {is is2 : List (AV p)} {len r r2 : AV p} {s2 s2' : Ctx p}
    (hok : is ≠ [] → DivModOk p L R (Nat.size is.length)) (hn : is.length + 1 < p)
    (hrun : hs.hashVarLen L R is len s = some (r, s')) (he : Ext s' s2) (hi2 : Inv s2)
    (hrun2 : hs.hashFixLen R is2 s2 = some (r2, s2')) (hw : Sat (RangeTable p L) s2' w)
    (hlen : (at' w len).val ≤ is.length) (hval : is2.map (at' w) = (is.map (at' w)).take (at' w len).val) :
    at' w r2 = at' w r := by
  obtain ⟨e1, e2⟩ := hinit.ret
  have hsnd : Sound (RangeTable p L) (hs.hashVarLen L R is len) _ :=
    Hasher.hashVarLen_sound (e1 ▸ h.wf) e2 hR hRp hL is len hok hn
  have hx : Ext s s2 := (hsnd.extends_of hi hrun).2.trans he
  have hinit2 : Initialised sp R hs s2 := by
    obtain ⟨s0, s1, a, b, c⟩ := hinit.run
    exact ⟨s0, s1, a, b, c.trans hx⟩
  have hsnd2 : Sound (RangeTable p L) (hs.hashFixLen R is2) _ := Hasher.hashFixLen_sound (e1 ▸ h.wf) e2 is2
  rw [C41_fix_len h hR hinit2 hi2 hrun2 hw, hval,
    C41_var_len h hR hRp hL hinit hi hok hn hrun (Sat.mono (he.trans (hsnd2.extends_of hi2 hrun2).2) hw) hlen]

/-- C41: the streaming sponge: `update` only buffers; a squeeze absorbs the buffered elements (padded) and returns
element one of the new state, so that squeezes can be chained. -/
theorem C41_sponge_squeeze (h : IsSpec rF rP cs mds inv sp) (hR : 1 ≤ R) {g : Sponge p} (hg : g.spec = sp)
    (hl : g.state.length = R + 1) (els : List (AV p)) {r : Sponge p × AV p} (hi : Inv s)
    (hrun : (g.update els).squeeze R s = some (r, s')) (hw : Sat tbl s' w) :
    let new := spongeAbsorb (textPerm rF rP mds cs) R (g.state.map (at' w)) ((g.absorbing ++ els).map (at' w))
    r.1.absorbing = [] ∧ r.1.initState = g.initState ∧ r.1.spec = sp ∧ r.1.state.length = R + 1 ∧
      r.1.state.map (at' w) = new ∧ at' w r.2 = new.getD 1 0 := by
  subst hg
  have hl' : (g.update els).state.length = R + 1 := hl
  have hs' : WFSpec (g.update els).spec (R + 1) := h.wf
  obtain ⟨h1, h2, h3, h4⟩ := (Sponge.squeeze_sound hs' hl').run hi hrun hw
  obtain ⟨h5, h6⟩ := Sponge.squeeze_ret hs' R hl' s r s' hrun
  have e := h.absorb hR (g.state.map (at' w)) ((g.absorbing ++ els).map (at' w)) (by simpa using hl)
  exact ⟨h1, h2, h6, h5, by rw [h3, ← e]; rfl, by rw [h4, ← e]; rfl⟩

/-- C41: a fresh sponge starts in the initial state with nothing buffered, and `clear` goes back to it. -/
theorem C41_sponge_new {g : Sponge p} (hi : Inv s) (hrun : Sponge.fromSpec sp (R + 1) s = some (g, s'))
    (hw : Sat tbl s' w) :
    g.spec = sp ∧ g.absorbing = [] ∧ g.state.map (at' w) = spongeInit R ∧ g.clear = g ∧
      ∀ els st, ({ g with absorbing := els, state := st } : Sponge p).clear = g := by
  have h1 : Sound tbl (Sponge.fromSpec sp (R + 1)) (fun w g => g.state.map (at' w) = spongeInit R) := by
    intro s
    refine Snd.bind (pDefault_sound (R + 1) s) fun a s1 _ => Snd.pure ?_
    rintro w _ ⟨-, h⟩
    exact h
  have h2 : Ret (Sponge.fromSpec sp (R + 1)) (fun g => g.spec = sp ∧ g.absorbing = [] ∧ g.state = g.initState) :=
    Ret.bind_ fun _ => Ret.pure ⟨rfl, rfl, rfl⟩
  obtain ⟨a, b, c⟩ := h2 _ _ _ hrun
  have e : ∀ els st, ({ g with absorbing := els, state := st } : Sponge p).clear = g := by
    intro els st
    obtain ⟨g1, g2, g3, g4⟩ := g
    simp only at b c
    subst b c
    rfl
  exact ⟨a, b, h1.run hi hrun hw, e _ _, e⟩

theorem C41_init_complete (h : IsSpec rF rP cs mds inv sp) (hR : 1 ≤ R) (hg : Good tbl ext s) :
    Completes tbl ext s (Hasher.init sp (R + 1) R) (fun hs s' => hs.spec = sp ∧ AvsCon ext s' hs.initState (spongeInit R) ∧
      Con ext s' hs.emptyHash (spongeHash (textPerm rF rP mds cs) R [])) := by
  refine ((Hasher.init_cmp h.wf hR).weaken ?_).run hg
  rintro hs s' ⟨h1, h2, h3⟩
  rw [h.hash hR] at h2
  exact ⟨h3, h1, h2⟩

/-- C41: the honest prover can always hash. -/
theorem C41_fix_len_complete (h : IsSpec rF rP cs mds inv sp) (hR : 1 ≤ R) {hs : Hasher p} (hsp : hs.spec = sp)
    (h1 : AvsCon ext s hs.initState (spongeInit R))
    (h2 : Con ext s hs.emptyHash (spongeHash (textPerm rF rP mds cs) R [])) {is : List (AV p)} {us : List (ZMod p)}
    (hg : Good tbl ext s) (hu : AvsCon ext s is us) :
    Completes tbl ext s (hs.hashFixLen R is) (fun r s' => Con ext s' r (spongeHash (textPerm rF rP mds cs) R us)) := by
  rw [← h.hash hR] at h2 ⊢
  exact (Hasher.hashFixLen_cmp h.wf hR ⟨h1, h2, hsp⟩ hu).run hg

theorem C41_var_len_complete (h : IsSpec rF rP cs mds inv sp) (hR : 1 ≤ R) (hRp : R < p) (hL : RangeOk p L)
    {hs : Hasher p} (hsp : hs.spec = sp) (h1 : AvsCon ext s hs.initState (spongeInit R))
    (h2 : Con ext s hs.emptyHash (spongeHash (textPerm rF rP mds cs) R [])) {is : List (AV p)} {us : List (ZMod p)}
    (hg : Good (RangeTable p L) ext s) (hu : AvsCon ext s is us) {len : AV p} {l : ℕ}
    (hlen : Con ext s len ((l : ℕ) : ZMod p)) (hl : l ≤ us.length)
    (hd : safeBits L (2 ^ Nat.size us.length / R + 1) ≤ capacity p) (hr : safeBits L R ≤ capacity p)
    (hn : us.length + 1 < p) :
    Completes (RangeTable p L) ext s (hs.hashVarLen L R is len) (fun r s' =>
      Con ext s' r (spongeHash (textPerm rF rP mds cs) R (us.take l))) := by
  rw [← h.hash hR] at h2 ⊢
  exact (Hasher.hashVarLen_cmp h.wf hR hRp hL ⟨h1, h2, hsp⟩ hu hlen hl hd hr hn).run hg

/-- A run that initialises a hasher and hashes two elements; `RATE = 2`, so the padding takes a block of its own. -/
example : Completes (RangeTable 101 4) (fun _ => 0) ctx0
    (do
      let (_, is) ← load5
      let h ← Hasher.init sp101 3 2
      h.hashFixLen 2 is)
    (fun r s' => Con (fun _ => 0) s' r (spongeHash (textPerm 4 2 mds101 cs101) 2 [92, 65])) := by
  rw [← isSpec101.hash (by decide)]
  refine (Cmp.bind load5_cmp fun r s1 _ h => Cmp.bind (Hasher.init_cmp isSpec101.wf (by decide)) fun hs s2 e2 h2 => ?_).run good0
  exact Hasher.hashFixLen_cmp isSpec101.wf (by decide) h2 (AvsCon.mono h.2 e2)

/-- A spec over `Z/1009`. -/
def mds1009 : Mat 1009 3 := Matrix.of ![![2, 3, 5], ![7, 1, 4], ![6, 8, 9]]

def inv1009 : Mat 1009 3 := Matrix.of ![![684, 754, 406], ![765, 313, 557], ![882, 116, 916]]

def cs1009 : List (Fin 3 → ZMod 1009) := [![1, 2, 3], ![4, 5, 6], ![7, 8, 9], ![10, 11, 12], ![13, 14, 15], ![16, 17, 18]]

theorem mul1009 : mds1009 * inv1009 = 1 := by
  ext i j
  rw [Matrix.mul_apply, Fin.sum_univ_three]
  fin_cases i <;> fin_cases j <;> decide +kernel

theorem newSpec1009 : (newSpec 4 2 cs1009 mds1009 inv1009).isSome = true := by decide +kernel

def sp1009 : PSpec 1009 := (newSpec 4 2 cs1009 mds1009 inv1009).get newSpec1009

theorem isSpec1009 : IsSpec (R := 2) 4 2 cs1009 mds1009 inv1009 sp1009 :=
  ⟨(Option.some_get newSpec1009).symm, by decide, mul1009⟩

/-- Variable length: three cells of which two are used. -/
example : Completes (RangeTable 1009 4) (fun _ => 0) ctx1009
    (do
      let (is, l) ← load1009
      let h ← Hasher.init sp1009 3 2
      h.hashVarLen 4 2 is l)
    (fun r s' => Con (fun _ => 0) s' r (spongeHash (textPerm 4 2 mds1009 cs1009) 2 [200, 7])) := by
  rw [← isSpec1009.hash (by decide)]
  refine (Cmp.bind load1009_cmp fun r s1 _ h => Cmp.bind (Hasher.init_cmp isSpec1009.wf (by decide))
    fun hs s2 e2 h2 => ?_).run good1009
  have hl : Con (fun _ => 0) s2 r.2 (((2 : ℕ) : ZMod 1009)) := h.2.mono e2
  exact Hasher.hashVarLen_cmp isSpec1009.wf (by decide) (by norm_num) rangeOk1009 h2 (AvsCon.mono h.1 e2) hl (by decide)
    (by rw [capacity1009]; decide +kernel) (by rw [capacity1009]; decide +kernel) (by decide)

/-- The no-wrap hypothesis of `C41_var_len` in this case. -/
example : DivModOk 1009 4 2 (Nat.size 3) := divModOk_of_le (by norm_num) (by rw [capacity1009]; decide +kernel)
  (by rw [capacity1009]; decide +kernel) (by rw [capacity1009]; decide +kernel)

/-! ## C58: compact inputs -/

/-- C58: `hash_compact_input`: row `i` carries the hash of all elements absorbed since the last final row, provided every
row is well formed (`is_final` a bit, `len ≤ RATE`, non-final rows full). -/
theorem C58_compact (h : IsSpec rF rP cs mds inv sp) (hR : 1 ≤ R) (hRp : R < p) {hs : Hasher p}
    (hinit : Initialised sp R hs s) (hi : Inv s) {rows : List (CompactInput p)} (hrows : ∀ c ∈ rows, c.inputs.length = R)
    {out : List (AV p × AV p)} (hrun : hs.hashCompact R rows s = some (out, s')) (hw : Sat tbl s' w)
    (hok : ∀ c ∈ rows, c.Ok R w) :
    out.map Prod.snd = rows.map (·.isFinal) ∧
      out.map (fun r => at' w r.1) = compactSpec (textPerm rF rP mds cs) R [] (rows.map (CompactInput.val w)) := by
  obtain ⟨rfl, e2⟩ := hinit.ret
  have hsnd : Sound tbl (hs.hashCompact R rows) _ := Hasher.hashCompact_sound h.wf e2 hR hRp rows hrows
  obtain ⟨h1, h2⟩ := hsnd.run hi hrun hw
  refine ⟨h1, ?_⟩
  rw [h2 (hinit.ok h.wf (hsnd.extends_of hi hrun).2 hw) hok]
  have : ∀ (l : List (List (ZMod p) × ℕ × Bool)) (acc : List (ZMod p)),
      compactSpec (nPerm hs.spec) R acc l = compactSpec (textPerm rF rP mds cs) R acc l := by
    intro l
    induction l with
    | nil => intro acc; rfl
    | cons e l ih =>
      obtain ⟨xs, n, fin⟩ := e
      intro acc
      rw [compactSpec, compactSpec, h.hash hR, ih]
  exact this _ _

/-- C58: `hash_compact_chunk_inputs`: a final row carries the hash of all chunks of its group, a non-final row zero. -/
theorem C58_chunks (h : IsSpec rF rP cs mds inv sp) (hR : 1 ≤ R) {hs : Hasher p}
    (hinit : Initialised sp R hs s) (hi : Inv s) {rows : List (ChunkInput p)}
    (hrows : ∀ c ∈ rows, ∀ i ∈ c.inputs, i.length = R)
    {out : List (AV p × AV p)} (hrun : hs.hashChunks R rows s = some (out, s')) (hw : Sat tbl s' w)
    (hok : ∀ c ∈ rows, at' w c.isFinal = 0 ∨ at' w c.isFinal = 1) :
    out.map Prod.snd = rows.map (·.isFinal) ∧
      out.map (fun r => at' w r.1) = chunkSpec (textPerm rF rP mds cs) R [] (rows.map (ChunkInput.val w)) := by
  obtain ⟨rfl, e2⟩ := hinit.ret
  have hsnd : Sound tbl (hs.hashChunks R rows) _ := Hasher.hashChunks_sound h.wf e2 hR rows hrows
  obtain ⟨h1, h2⟩ := hsnd.run hi hrun hw
  refine ⟨h1, ?_⟩
  rw [h2 (hinit.ok h.wf (hsnd.extends_of hi hrun).2 hw) hok]
  have : ∀ (l : List (List (List (ZMod p)) × Bool)) (acc : List (ZMod p)),
      chunkSpec (nPerm hs.spec) R acc l = chunkSpec (textPerm rF rP mds cs) R acc l := by
    intro l
    induction l with
    | nil => intro acc; rfl
    | cons e l ih =>
      obtain ⟨xs, fin⟩ := e
      intro acc
      rw [chunkSpec, chunkSpec, h.hash hR, ih]
  exact this _ _

/-- Finding (C58): `PoseidonCompactInput::add_validation_constraints` is inverted.  Every satisfying assignment has
`is_final = 0` and `len ≠ RATE`, so that **no** well-formed row satisfies it. -/
theorem C58_validator_rejects_valid (hL : RangeOk p L) (hb : safeBits L (R + 1) + L ≤ capacity p) (hRp : R < p)
    {c : CompactInput p} {r : Unit} (hi : Inv s) (hrun : c.validate L R s = some (r, s')) (hok : c.Ok R w) :
    ¬ Sat (RangeTable p L) s' w := by
  intro hw
  obtain ⟨h0, h1⟩ := (CompactInput.validate_sound R hL hb c).run hi hrun hw hok.1
  apply h1
  rw [← hok.2.2 h0, ZMod.natCast_zmod_val]

/-- Finding (C58), the other direction: it accepts ill-formed rows: any non-final row of length `l ≠ RATE`, even
`l > RATE`, as long as it is within the range check. -/
theorem C58_validator_accepts_invalid (hL : RangeOk p L) (hb : safeBits L (R + 1) + L ≤ capacity p) {c : CompactInput p}
    {l : ℕ} (hg : Good (RangeTable p L) ext s) (hfin : Con ext s c.isFinal 0) (hlen : Con ext s c.len ((l : ℕ) : ZMod p))
    (hlp : l < p) (hRp : R < p) (hne : l ≠ R) (hl : l < 2 ^ safeBits L (R + 1)) :
    Completes (RangeTable p L) ext s (c.validate L R) (fun _ _ => True) := by
  refine Cmp.run (Cmp.bind (isLessThanSafe_cmp hL hlen hb (by rwa [ZMod.val_natCast_of_lt hlp])) fun _ s1 e1 _ => ?_) hg
  refine Cmp.bind (isEqual_cmp (a := .existing c.len) (b := .constant ((R : ℕ) : ZMod p)) (hlen.mono e1) rfl)
    fun full s2 e2 h2 => ?_
  rw [if_neg (by rw [natCast_iff_of_lt hlp hRp]; exact hne)] at h2
  refine Cmp.bind (or_cmp (a := .existing c.isFinal) (b := .existing full) ((hfin.mono e1).mono e2) h2) fun v s3 e3 h3 => ?_
  have h3' : Con ext s3 v 0 := by simpa using h3
  exact (assertIsConst_cmp h3'.conF).weaken fun _ _ _ => trivial

/-- The situation of the finding with `RATE = 2` over `Z/1009`: a non-final row of claimed length 3 passes. -/
example : Completes (RangeTable 1009 4) (fun _ => 0) ctx1009
    (do
      let a ← loadWitness (5 : ZMod 1009)
      let f ← loadWitness (0 : ZMod 1009)
      let l ← loadWitness (((3 : ℕ) : ZMod 1009))
      (CompactInput.mk [a, a] f l).validate 4 2)
    (fun _ _ => True) := by
  refine (Cmp.bind (loadWitness_cmp _) fun a s1 e1 h1 => Cmp.bind (loadWitness_cmp _) fun f s2 e2 h2 =>
    Cmp.bind (loadWitness_cmp _) fun l s3 e3 h3 => ?_).run good1009
  intro hg
  obtain ⟨r, s', k1, k2, _, k3, k4⟩ := C58_validator_accepts_invalid (R := 2) (c := ⟨[a, a], f, l⟩) rangeOk1009
    (by rw [capacity1009]; decide +kernel) hg (h2.mono e3) h3 (by norm_num) (by norm_num) (by norm_num)
    (by decide +kernel)
  exact ⟨r, s', k1, k2, k3, k4⟩

/-! ## C03 and C56 for Poseidon -/

/-- Forget everything prover mode does not have. -/
def Hasher.prover (h : Hasher p) : Hasher p := ⟨h.spec, h.initState.map AV.prover, h.emptyHash.prover⟩

/-- C03 for Poseidon: prover mode computes the same values and needs no constraint data. -/
theorem C03_poseidon (sp : PSpec p) (T R L : ℕ) (h : Hasher p) (st l : List (AV p)) (a : AV p) :
    ProverMatches (List.map AV.prover) (permutation sp R st l none)
      (permutation sp R (st.map AV.prover) (l.map AV.prover) none) ∧
    ProverMatches (List.map AV.prover) (permutation sp R st l (some a))
      (permutation sp R (st.map AV.prover) (l.map AV.prover) (some a.prover)) ∧
    ProverMatches Hasher.prover (Hasher.init sp T R) (Hasher.init sp T R) ∧
    ProverMatches AV.prover (h.hashFixLen R l) (h.prover.hashFixLen R (l.map AV.prover)) ∧
    ProverMatches AV.prover (h.hashVarLen L R l a) (h.prover.hashVarLen L R (l.map AV.prover) a.prover) := by
  have pid : ∀ r r' : AV p, RA true r r' → r' = r.prover := fun _ _ h => h.toProver
  have pls : ∀ r r' : List (AV p), RAs true r r' → r' = r.map AV.prover := fun _ _ h => h.toProver
  have ph : ∀ r r' : Hasher p, RHasher true r r' → r' = r.prover := by
    rintro ⟨x, y, z⟩ ⟨x', y', z'⟩ ⟨h1, h2, h3⟩
    have h2' : y' = _ := RAs.toProver h2
    have h3' : z' = _ := RA.toProver h3
    simp only at h1
    subst h1 h2' h3'
    rfl
  have hh : RHasher true h h.prover := ⟨rfl, ras_prover _, ra_prover _⟩
  exact ⟨(permutation_rel sp R (ras_prover st) (ras_prover l) .none).prover pls,
    (permutation_rel sp R (ras_prover st) (ras_prover l) (.some (ra_prover a))).prover pls,
    (Hasher.init_rel sp T R).prover ph, (Hasher.hashFixLen_rel hh R (ras_prover l)).prover pid,
    (Hasher.hashVarLen_rel L hh R (ras_prover l) (ra_prover a)).prover pid⟩

/-- C56 for Poseidon: the circuit does not depend on the witness values. -/
theorem C56_poseidon (sp : PSpec p) (T R L : ℕ) {h h' : Hasher p} {st st' l l' : List (AV p)} {a a' : AV p}
    {rows rows' : List (CompactInput p)} {crows crows' : List (ChunkInput p)}
    (hsp : h.spec = h'.spec) (hst : AVs.Same h.initState h'.initState) (hem : h.emptyHash.Same h'.emptyHash)
    (hs : AVs.Same st st') (hl : AVs.Same l l') (ha : a.Same a')
    (hr : List.Forall₂ (fun c c' : CompactInput p => AVs.Same c.inputs c'.inputs ∧ c.isFinal.Same c'.isFinal ∧ c.len.Same c'.len) rows rows')
    (hc : List.Forall₂ (fun c c' : ChunkInput p => List.Forall₂ AVs.Same c.inputs c'.inputs ∧ c.isFinal.Same c'.isFinal) crows crows') :
    ShapeIndep AVs.Same (permutation sp R st l none) (permutation sp R st' l' none) ∧
    ShapeIndep AVs.Same (permutation sp R st l (some a)) (permutation sp R st' l' (some a')) ∧
    ShapeIndep AV.Same (h.hashFixLen R l) (h'.hashFixLen R l') ∧
    ShapeIndep AV.Same (h.hashVarLen L R l a) (h'.hashVarLen L R l' a') ∧
    ShapeIndep (List.Forall₂ (fun a b => AV.Same a.1 b.1 ∧ AV.Same a.2 b.2)) (h.hashCompact R rows) (h'.hashCompact R rows') ∧
    ShapeIndep (List.Forall₂ (fun a b => AV.Same a.1 b.1 ∧ AV.Same a.2 b.2)) (h.hashChunks R crows) (h'.hashChunks R crows') := by
  have sid : ∀ r r' : AV p, RA false r r' → AV.Same r r' := fun _ _ h => ra_same.1 h
  have sls : ∀ r r' : List (AV p), RAs false r r' → AVs.Same r r' := fun _ _ h => ras_same.1 h
  have ha := ra_same.2 ha
  have hl := ras_same.2 hl
  have hs := ras_same.2 hs
  have hh : RHasher false h h' := ⟨hsp, ras_same.2 hst, ra_same.2 hem⟩
  have sp2 : ∀ r r' : List (AV p × AV p), List.Forall₂ (fun a b => RA false a.1 b.1 ∧ RA false a.2 b.2) r r' →
      List.Forall₂ (fun a b => AV.Same a.1 b.1 ∧ AV.Same a.2 b.2) r r' :=
    fun _ _ h => h.imp fun _ _ h => ⟨ra_same.1 h.1, ra_same.1 h.2⟩
  exact ⟨(permutation_rel sp R hs hl .none).shape sls, (permutation_rel sp R hs hl (.some ha)).shape sls,
    (Hasher.hashFixLen_rel hh R hl).shape sid, (Hasher.hashVarLen_rel L hh R hl ha).shape sid,
    (Hasher.hashCompact_rel hh R (hr.imp fun _ _ h => ⟨ras_same.2 h.1, ra_same.2 h.2.1, ra_same.2 h.2.2⟩)).shape sp2,
    (Hasher.hashChunks_rel hh R (hc.imp fun _ _ h => ⟨h.1.imp fun _ _ h => ras_same.2 h, ra_same.2 h.2⟩)).shape sp2⟩

end H2
