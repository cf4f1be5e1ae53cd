import Verif.Poseidon.Sound
import Verif.Poseidon.Sponge
import Verif.Range.SoundOps
import Verif.Core.Rel

/-! # Soundness of the Poseidon hashers -/

set_option autoImplicit false
set_option linter.unusedSectionVars false
namespace H2
variable {p : ℕ} [Fact p.Prime] {tbl : ZMod p → Prop} {L : ℕ}

theorem pDefault_sound (T : ℕ) : Sound tbl (pDefault T : M p _) (fun w rs => T ≠ 0 ∧ rs.map (at' w) = spongeInit (T - 1)) :=
  fun s => Snd.assert fun h => (loadConstants_sound _ s).weaken fun _ _ _ h2 => ⟨of_decide_eq_true h, h2⟩

theorem loadConstants_ret (cs : List (ZMod p)) : Ret (loadConstants cs) (fun rs => rs.length = cs.length) := by
  induction cs with
  | nil => exact Ret.pure rfl
  | cons c cs ih => exact Ret.bind_ fun _ => ih.bind fun r h => Ret.pure (by rw [List.length_cons, h]; rfl)

theorem pDefault_ret (T : ℕ) : Ret (pDefault T : M p _) (fun rs => rs.length = T) := by
  intro s r s' h
  obtain ⟨_, s1, h1, h2⟩ := bind_some.1 h
  have hT : T ≠ 0 := of_decide_eq_true (assertM_state h1).1
  have := loadConstants_ret _ _ _ _ h2
  rw [this, List.length_cons, List.length_replicate]; omega

theorem absorbChunks_ret (sp : PSpec p) (R : ℕ) (cs : List (List (AV p))) (xs : List (AV p)) {T : ℕ}
    (hx : xs.length = T) (hm : sp.mds.length = T) : Ret (absorbChunks sp R cs xs) (fun rs => rs.length = T) := by
  induction cs generalizing xs with
  | nil => exact Ret.pure hx
  | cons c cs ih => exact (permutation_ret _ _ _ _ _).bind fun y h => ih y (by rw [h, hm])

theorem absorbChunks_sound {sp : PSpec p} {T : ℕ} (hs : WFSpec sp T) (R : ℕ) (cs : List (List (AV p)))
    (xs : List (AV p)) (hx : xs.length = T) :
    Sound tbl (absorbChunks sp R cs xs) (fun w rs =>
      rs.map (at' w) = (cs.map (fun c => c.map (at' w))).foldl (nAbsorbPerm sp) (xs.map (at' w))) := by
  induction cs generalizing xs with
  | nil => exact fun s => Snd.pure fun w _ => rfl
  | cons c cs ih =>
    intro s
    refine Snd.bindR (permutation_sound_none hs R xs c hx s) (permutation_ret _ _ _ _ _) fun y s1 _ hy => ?_
    refine (ih y (by rw [hy, hs.mds]) s1).weaken ?_
    rintro w r _ h ⟨_, h2⟩
    rw [h, h2]; rfl

theorem chunksAux_map {α β : Type} (f : α → β) (n k : ℕ) (l : List α) :
    chunksAux n k (l.map f) = (chunksAux n k l).map (fun c => c.map f) := by
  induction k generalizing l with
  | zero => cases l <;> rfl
  | succ k ih =>
    cases l with
    | nil => rfl
    | cons a l =>
      simp only [List.map_cons, chunksAux, List.cons.injEq]
      rw [← List.map_cons, ← List.map_take, ← List.map_drop, ih]
      exact ⟨rfl, rfl⟩

theorem chunksOf_map {α β : Type} (f : α → β) (n : ℕ) (l : List α) :
    chunksOf n (l.map f) = (chunksOf n l).map (fun c => c.map f) := by
  unfold chunksOf; rw [List.length_map, chunksAux_map]

/-- The conditional last permutation of `fix_len_array_squeeze`. -/
theorem squeezeEnd_sound {sp : PSpec p} {T : ℕ} (hs : WFSpec sp T) (R n : ℕ) (xs : List (AV p)) (hx : xs.length = T) :
    Sound tbl (squeezeEnd sp R n xs) (fun w rs =>
      rs.map (at' w) = if n % R = 0 then nAbsorbPerm sp (xs.map (at' w)) [] else xs.map (at' w)) := by
  intro s
  unfold squeezeEnd
  by_cases h : n % R = 0
  · simp only [if_pos h]
    exact (permutation_sound_none hs R xs [] hx s).weaken fun w r _ h => h.2
  · simp only [if_neg h]
    exact Snd.pure fun w _ => rfl

theorem squeezeEnd_ret {sp : PSpec p} {T : ℕ} (hs : WFSpec sp T) (R n : ℕ) (xs : List (AV p)) (hx : xs.length = T) :
    Ret (squeezeEnd sp R n xs) (fun rs => rs.length = T) :=
  Ret.ite (fun _ => (permutation_ret _ _ _ _ _).weaken fun r h => by rw [h, hs.mds]) (fun _ => Ret.pure hx)

theorem fixLenSqueeze_sound {sp : PSpec p} {R : ℕ} (hs : WFSpec sp (R + 1)) (is xs : List (AV p))
    (hx : xs.length = R + 1) :
    Sound tbl (fixLenSqueeze sp R is xs) (fun w r => 1 ≤ R ∧
      r.1.map (at' w) = spongeAbsorb (nPerm sp) R (xs.map (at' w)) (is.map (at' w)) ∧
      at' w r.2 = (spongeAbsorb (nPerm sp) R (xs.map (at' w)) (is.map (at' w))).getD 1 0) := by
  intro s
  refine Snd.assert fun hR => ?_
  have hR : 1 ≤ R := Nat.one_le_iff_ne_zero.2 (of_decide_eq_true hR)
  refine Snd.bindR (absorbChunks_sound hs R _ xs hx s) (absorbChunks_ret _ _ _ _ hx hs.mds) fun a s1 _ ha => ?_
  refine Snd.bindR (squeezeEnd_sound hs R is.length a ha s1) (squeezeEnd_ret hs R _ a ha) fun b s2 _ hb => ?_
  refine Snd.unwrap fun r hr => Snd.pure ?_
  intro w _ h1 h2
  have e : b.map (at' w) = spongeAbsorb (nPerm sp) R (xs.map (at' w)) (is.map (at' w)) := by
    rw [spongeAbsorb_eq hR hs _ _ (by simp [hx]), chunksOf_map, ← h2, h1, List.length_map]
  refine ⟨hR, e, ?_⟩
  rw [← e]
  simp [List.getD, hr]

theorem fixLenSqueeze_ret {sp : PSpec p} {T : ℕ} (hs : WFSpec sp T) (R : ℕ) (is xs : List (AV p))
    (hx : xs.length = T) : Ret (fixLenSqueeze sp R is xs) (fun r => r.1.length = T) :=
  Ret.bind_ fun _ => (absorbChunks_ret _ _ _ _ hx hs.mds).bind fun _ ha => (squeezeEnd_ret hs R _ _ ha).bind fun _ hb =>
    Ret.bind_ fun _ => Ret.pure hb

/-- What is known of a hasher: its initial state and its empty hash. -/
def HasherOk (sp : PSpec p) (R : ℕ) (w : Cell → ZMod p) (h : Hasher p) : Prop :=
  h.initState.map (at' w) = spongeInit R ∧ at' w h.emptyHash = spongeHash (nPerm sp) R []

theorem Hasher.init_ret (sp : PSpec p) (T R : ℕ) :
    Ret (Hasher.init sp T R) (fun h => h.spec = sp ∧ h.initState.length = T) :=
  (pDefault_ret T).bind fun _ hs => Ret.bind_ fun _ => Ret.pure ⟨rfl, hs⟩

theorem Hasher.init_sound {sp : PSpec p} {R : ℕ} (hs : WFSpec sp (R + 1)) :
    Sound tbl (Hasher.init sp (R + 1) R) (fun w h => HasherOk sp R w h) := by
  intro s
  refine Snd.bindR (pDefault_sound (R + 1) s) (pDefault_ret _) fun a s1 _ ha => ?_
  refine Snd.bind (fixLenSqueeze_sound hs [] a ha s1) fun r s2 _ => Snd.pure ?_
  rintro w _ ⟨_, _, h2⟩ ⟨_, h3⟩
  rw [Nat.add_sub_cancel] at h3
  exact ⟨h3, by rw [h2, h3]; rfl⟩

theorem Hasher.hashFixLen_sound {h : Hasher p} {R : ℕ} (hs : WFSpec h.spec (R + 1)) (hl : h.initState.length = R + 1)
    (is : List (AV p)) :
    Sound tbl (h.hashFixLen R is) (fun w r => HasherOk h.spec R w h →
      at' w r = spongeHash (nPerm h.spec) R (is.map (at' w))) := by
  intro s
  refine Snd.bind (fixLenSqueeze_sound hs is h.initState hl s) fun r s2 _ => Snd.pure ?_
  rintro w _ ⟨_, _, h2⟩ hok
  rw [h2, hok.1]; rfl

/-! ### variable length -/

theorem stateSelect_ret (sel : AV p) (xs ts : List (AV p)) :
    Ret (stateSelect sel xs ts) (fun rs => rs.length = xs.length) := by
  induction xs generalizing ts with
  | nil => exact Ret.pure (by simp)
  | cons x xs ih =>
    cases ts with
    | nil => exact Ret.pure (by simp)
    | cons t ts => exact Ret.bind_ fun y => (ih ts).bind fun ys h => Ret.pure (by simp [h])

theorem stateSelect_sound (sel : AV p) (xs ts : List (AV p)) (hl : xs.length = ts.length) :
    Sound tbl (stateSelect sel xs ts) (fun w rs =>
      (at' w sel = 1 → rs.map (at' w) = ts.map (at' w)) ∧ (at' w sel = 0 → rs.map (at' w) = xs.map (at' w))) := by
  induction xs generalizing ts with
  | nil =>
    cases ts with
    | nil => exact fun s => Snd.pure fun w _ => ⟨fun _ => rfl, fun _ => rfl⟩
    | cons t ts => simp at hl
  | cons x xs ih =>
    cases ts with
    | nil => simp at hl
    | cons t ts =>
      intro s
      refine Snd.bind (select_sound _ _ _ s) fun y s1 _ => ?_
      refine Snd.bind (ih ts (by simpa using hl) s1) fun ys s2 _ => Snd.pure ?_
      rintro w _ ⟨h1, h0⟩ ⟨a, b, c, ha, hb, hc, h2⟩
      simp only [QOk] at ha hb hc
      subst ha hb hc
      refine ⟨fun h => ?_, fun h => ?_⟩
      · rw [List.map_cons, List.map_cons, h1 h, h2, h]; simp
      · rw [List.map_cons, List.map_cons, h0 h, h2, h]; simp

theorem natCast_iff_of_lt {a b : ℕ} (ha : a < p) (hb : b < p) : ((a : ZMod p) = (b : ZMod p)) ↔ a = b := by
  constructor
  · intro h
    have := congrArg ZMod.val h
    rwa [ZMod.val_natCast_of_lt ha, ZMod.val_natCast_of_lt hb] at this
  · rintro rfl; rfl

theorem varLenStep_ret {sp : PSpec p} {T : ℕ} (hm : sp.mds.length = T) (R : ℕ) (np ll : AV p) (i : ℕ) (c st res : List (AV p))
    (hres : res.length = T) :
    Ret (varLenStep sp R np ll i c st res) (fun r => r.1.length = T ∧ r.2.length = T) :=
  Ret.bind_ fun _ => Ret.bind_ fun _ => (permutation_ret _ _ _ _ _).bind fun _ h1 => (stateSelect_ret _ _ _).bind
    fun _ h2 => Ret.pure ⟨by rw [h1, hm], by rw [h2, hres]⟩

theorem varLenStep_sound {sp : PSpec p} {R : ℕ} (hs : WFSpec sp (R + 1)) (hR : 1 ≤ R) (hRp : R < p)
    (np ll : AV p) (i q r : ℕ) (c st res : List (AV p)) (hst : st.length = R + 1) (hres : res.length = R + 1)
    (hr : r < R) (hi : i + 1 < p) (hq : q + 1 < p) :
    Sound tbl (varLenStep sp R np ll i c st res) (fun w e => at' w np = ((q + 1 : ℕ) : ZMod p) →
      at' w ll = ((r : ℕ) : ZMod p) →
      (e.1.map (at' w), e.2.map (at' w)) = nVarStep sp R q r i (c.map (at' w)) (st.map (at' w)) (res.map (at' w))) := by
  intro s
  refine Snd.bind (isEqual_sound _ _ s) fun il s1 _ => ?_
  refine Snd.bind (select_sound _ _ _ s1) fun lc s2 _ => ?_
  refine Snd.bindR (permutation_sound_some hs hR hRp st c lc hst s2) (permutation_ret _ _ _ _ _) fun st' s3 _ hst' => ?_
  refine Snd.bind (stateSelect_sound il res st' (by rw [hres, hst', hs.mds]) s3) fun res' s4 _ => Snd.pure ?_
  rintro w _ ⟨h1, h0⟩ hperm ⟨a, b, d, ha, hb, hd, h2⟩ ⟨e, f, he, hf, h3⟩ hnp hll
  simp only [QOk] at ha hb hd he hf
  subst ha hb hd he hf
  rw [hnp] at h3
  rw [hll] at h2
  have hiff : ((q + 1 : ℕ) : ZMod p) = ((i + 1 : ℕ) : ZMod p) ↔ i = q := by
    rw [natCast_iff_of_lt hq hi]; omega
  rw [if_congr hiff rfl rfl] at h3
  have hlc : (at' w lc).val = if i = q then r else R := by
    by_cases h : i = q
    · rw [if_pos h] at h3 ⊢
      rw [h2, h3]
      simp only [mul_one, sub_add_cancel]
      exact ZMod.val_natCast_of_lt (by omega)
    · rw [if_neg h] at h3 ⊢
      rw [h2, h3]
      simp only [mul_zero, zero_add]
      exact ZMod.val_natCast_of_lt hRp
  have hp := hperm (by rw [hlc]; split <;> omega)
  rw [hlc] at hp
  unfold nVarStep
  by_cases h : i = q
  · rw [if_pos h] at h3
    simp only [h, if_true] at hp ⊢
    rw [h1 h3, hp]
  · rw [if_neg h] at h3
    simp only [h, if_false] at hp ⊢
    rw [h0 h3, hp]

theorem varLenLoop_ret {sp : PSpec p} {T : ℕ} (hm : sp.mds.length = T) (R : ℕ) (np ll : AV p) (i : ℕ)
    (cs : List (List (AV p))) (st res : List (AV p)) (hst : st.length = T) (hres : res.length = T) :
    Ret (varLenLoop sp R np ll i cs st res) (fun r => r.1.length = T ∧ r.2.length = T) := by
  induction cs generalizing i st res with
  | nil => exact Ret.pure ⟨hst, hres⟩
  | cons c cs ih => exact (varLenStep_ret hm R np ll i c st res hres).bind fun e he => ih _ _ _ he.1 he.2

theorem varLenLoop_sound {sp : PSpec p} {R : ℕ} (hs : WFSpec sp (R + 1)) (hR : 1 ≤ R) (hRp : R < p)
    (np ll : AV p) (i q r : ℕ) (cs : List (List (AV p))) (st res : List (AV p)) (hst : st.length = R + 1)
    (hres : res.length = R + 1) (hr : r < R) (hi : i + cs.length < p) (hq : q + 1 < p) :
    Sound tbl (varLenLoop sp R np ll i cs st res) (fun w e => at' w np = ((q + 1 : ℕ) : ZMod p) →
      at' w ll = ((r : ℕ) : ZMod p) → (e.1.map (at' w), e.2.map (at' w)) =
        nVarLoop sp R q r i (cs.map (fun c => c.map (at' w))) (st.map (at' w)) (res.map (at' w))) := by
  induction cs generalizing i st res with
  | nil => exact fun s => Snd.pure fun w _ _ _ => rfl
  | cons c cs ih =>
    intro s
    refine Snd.bindR (varLenStep_sound hs hR hRp np ll i q r c st res hst hres hr (by simp at hi; omega) hq s)
      (varLenStep_ret hs.mds R np ll i c st res hres) fun e s1 _ he => ?_
    refine (ih (i + 1) e.1 e.2 he.1 he.2 (by simp at hi; omega) s1).weaken ?_
    intro w r _ h1 h2 hnp hll
    rw [h1 hnp hll, List.map_cons, nVarLoop, ← h2 hnp hll]

theorem varLenExtra_ret {sp : PSpec p} {T : ℕ} (R : ℕ) (np : AV p) (m : ℕ) (st res : List (AV p))
    (hres : res.length = T) : Ret (varLenExtra sp R np m st res) (fun r => r.length = T) :=
  Ret.ite (fun _ => Ret.bind_ fun _ => Ret.bind_ fun _ => Ret.bind_ fun _ => (stateSelect_ret _ _ _).weaken
    fun _ h => by rw [h, hres]) (fun _ => Ret.pure hres)

theorem varLenExtra_sound {sp : PSpec p} {R : ℕ} (hs : WFSpec sp (R + 1)) (hR : 1 ≤ R) (hRp : R < p)
    (np : AV p) (m q : ℕ) (st res : List (AV p)) (hst : st.length = R + 1)
    (hres : res.length = R + 1) (hi : m / R + 1 < p) (hq : q + 1 < p) :
    Sound tbl (varLenExtra sp R np m st res) (fun w e => at' w np = ((q + 1 : ℕ) : ZMod p) →
      e.map (at' w) = if m % R = 0 then (if q = m / R then nAbsorbPerm sp (st.map (at' w)) [] else res.map (at' w))
        else res.map (at' w)) := by
  intro s
  unfold varLenExtra
  by_cases hm : m % R = 0
  · simp only [if_pos hm]
    refine Snd.bind (isEqual_sound _ _ s) fun il s1 _ => ?_
    refine Snd.bind (loadZero_sound s1) fun lc s2 _ => ?_
    refine Snd.bindR (permutation_sound_some hs hR hRp st [] lc hst s2) (permutation_ret _ _ _ _ _) fun st' s3 _ hst' => ?_
    refine (stateSelect_sound il res st' (by rw [hres, hst', hs.mds]) s3).weaken ?_
    rintro w r _ ⟨h1, h0⟩ hperm hlc ⟨e, f, he, hf, h3⟩ hnp
    simp only [QOk] at he hf
    subst he hf
    rw [hnp, if_congr (natCast_iff_of_lt hq hi) rfl rfl] at h3
    have hp := hperm (by rw [hlc, ZMod.val_zero]; omega)
    rw [hlc, ZMod.val_zero] at hp
    by_cases h : q = m / R
    · rw [if_pos h, h1 (by rw [h3, if_pos (by omega)]), hp]; rfl
    · rw [if_neg h, h0 (by rw [h3, if_neg (by omega)])]
  · simp only [if_neg hm]
    exact Snd.pure fun w _ _ => rfl

theorem ceilDiv_le_self {n R : ℕ} (hR : 1 ≤ R) (hn : 1 ≤ n) : ceilDiv n R ≤ n := by
  unfold ceilDiv
  apply Nat.div_le_of_le_mul
  obtain ⟨k, rfl⟩ : ∃ k, R = k + 1 := ⟨R - 1, by omega⟩
  obtain ⟨m, rfl⟩ : ∃ m, n = m + 1 := ⟨n - 1, by omega⟩
  rw [show m + 1 + (k + 1) - 1 = m + k + 1 by omega]
  nlinarith [Nat.zero_le (k * m)]

/-- `hash_var_len_array` hashes exactly the first `len` inputs. -/
theorem Hasher.hashVarLen_sound {h : Hasher p} {R : ℕ} (hs : WFSpec h.spec (R + 1)) (hl : h.initState.length = R + 1)
    (hR : 1 ≤ R) (hRp : R < p) (hL : RangeOk p L) (is : List (AV p)) (len : AV p)
    (hok : is ≠ [] → DivModOk p L R (Nat.size is.length)) (hn : is.length + 1 < p) :
    Sound (RangeTable p L) (h.hashVarLen L R is len) (fun w r => HasherOk h.spec R w h →
      (at' w len).val ≤ is.length →
      at' w r = spongeHash (nPerm h.spec) R ((is.map (at' w)).take (at' w len).val)) := by
  intro s
  unfold Hasher.hashVarLen
  by_cases h0 : is.length = 0
  · simp only [if_pos h0]
    have : is = [] := by simpa using h0
    subst this
    exact Snd.pure fun w _ hok hlen => by simpa using hok.2
  · simp only [if_neg h0]
    refine Snd.bind (divMod_sound (.existing len) R _ hL (hok (by simpa using h0)) s) fun dm s1 _ => ?_
    refine Snd.bind (inc_sound _ s1) fun np s2 _ => ?_
    -- the claim is about one assignment; its length value is only known then
    have hchunks := (chunksOf_spec hR is).2.2
    intro hinv r s' hrun
    have general : ∀ q rr : ℕ, rr < R → q + 1 < p → Snd (RangeTable p L) s2 (do
        let (st, res) ← varLenLoop h.spec R np dm.2 0 (chunksOf R is) h.initState h.initState
        let res ← varLenExtra h.spec R np is.length st res
        unwrap res[1]?) (fun w r _ => at' w np = ((q + 1 : ℕ) : ZMod p) → at' w dm.2 = ((rr : ℕ) : ZMod p) →
          at' w r = (let e := nVarLoop h.spec R q rr 0 (chunksOf R (is.map (at' w))) (h.initState.map (at' w)) (h.initState.map (at' w));
            if is.length % R = 0 then (if q = is.length / R then nAbsorbPerm h.spec e.1 [] else e.2) else e.2).getD 1 0) := by
      intro q rr hrr hq
      refine Snd.bindR (varLenLoop_sound hs hR hRp np dm.2 0 q rr _ _ _ hl hl hrr ?_ hq s2)
        (varLenLoop_ret hs.mds R np dm.2 0 _ _ _ hl hl) fun e s3 _ he => ?_
      · rw [hchunks, Nat.zero_add]
        exact lt_of_le_of_lt (ceilDiv_le_self hR (by omega)) (by omega)
      · refine Snd.bindR (varLenExtra_sound hs hR hRp np is.length q e.1 e.2 he.1 he.2
          (lt_of_le_of_lt (Nat.succ_le_succ (Nat.div_le_self _ _)) hn) hq s3)
          (varLenExtra_ret R np _ _ _ he.2) fun res s4 _ hres => ?_
        refine (unwrap_snd (s := s4) _).weaken ?_
        rintro w r _ ⟨_, hr⟩ h1 h2 hnp hll
        have h2 := h2 hnp hll
        rw [← chunksOf_map] at h2
        have h3 := h1 hnp
        rw [← h2]
        dsimp only
        rw [← h3]
        simp [List.getD, hr]
    obtain ⟨i1, e1, -⟩ := general 0 0 (by omega) (by omega) hinv r s' hrun
    refine ⟨i1, e1, fun w hw => ?_⟩
    rintro ⟨x, hx, hnp⟩ ⟨y, hy, hd1, hd2, -⟩ hH hlen
    simp only [QOk] at hx hy
    subst hx hy
    have hlR : (at' w len).val / R ≤ is.length := le_trans (Nat.div_le_self _ _) hlen
    obtain ⟨-, -, key⟩ := general ((at' w len).val / R) ((at' w len).val % R) (Nat.mod_lt _ (by omega)) (by omega)
      hinv r s' hrun
    have key := key w hw (by
        rw [hnp, ← ZMod.natCast_zmod_val (at' w dm.1), hd1]; push_cast; rfl) (by
        rw [← ZMod.natCast_zmod_val (at' w dm.2), hd2])
    rw [key, spongeHash, ← hH.1, ← nVarRes_eq hR hs _ _ _ (by simp [hl]) (by simpa using hlen), nVarRes, List.length_map]

/-! ### the streaming sponge -/

theorem Sponge.squeeze_sound {g : Sponge p} {R : ℕ} (hs : WFSpec g.spec (R + 1)) (hl : g.state.length = R + 1) :
    Sound tbl (g.squeeze R) (fun w r => r.1.absorbing = [] ∧ r.1.initState = g.initState ∧
      r.1.state.map (at' w) = spongeAbsorb (nPerm g.spec) R (g.state.map (at' w)) (g.absorbing.map (at' w)) ∧
      at' w r.2 = (spongeAbsorb (nPerm g.spec) R (g.state.map (at' w)) (g.absorbing.map (at' w))).getD 1 0) := by
  intro s
  refine Snd.bind (fixLenSqueeze_sound hs _ g.state hl s) fun r s2 _ => Snd.pure ?_
  rintro w _ ⟨_, h1, h2⟩
  exact ⟨rfl, rfl, h1, h2⟩

theorem Sponge.squeeze_ret {g : Sponge p} {T : ℕ} (hs : WFSpec g.spec T) (R : ℕ) (hl : g.state.length = T) :
    Ret (g.squeeze R) (fun r => r.1.state.length = T ∧ r.1.spec = g.spec) :=
  (fixLenSqueeze_ret hs R _ _ hl).bind fun _ h => Ret.pure ⟨h, rfl⟩

/-! ### compact inputs -/

/-- Specification of the outputs for rows `(inputs, len, is_final)`: the hash of all the elements of the current group,
a group ending after a final row. -/
def compactSpec (f : List (ZMod p) → List (ZMod p)) (R : ℕ) : List (ZMod p) → List (List (ZMod p) × ℕ × Bool) →
    List (ZMod p)
  | _, [] => []
  | acc, (xs, l, fin) :: rows =>
    spongeHash f R (acc ++ xs.take l) :: compactSpec f R (if fin then [] else acc ++ xs.take l) rows

/-- The state after absorbing whole blocks. -/
theorem spongeHash_blocks {sp : PSpec p} {R : ℕ} (hR : 1 ≤ R) (h : WFSpec sp (R + 1)) (cs : List (List (ZMod p)))
    (hc : ∀ c ∈ cs, c.length = R) (xs s : List (ZMod p)) (hs : s.length = R + 1) :
    spongeAbsorb (nPerm sp) R s (cs.flatten ++ xs) = spongeAbsorb (nPerm sp) R (cs.foldl (nAbsorbPerm sp) s) xs := by
  induction cs generalizing s with
  | nil => rfl
  | cons c cs ih =>
    rw [List.flatten_cons, List.append_assoc, spongeAbsorb_full hR h _ _ _ hs (hc c (by simp)),
      ih (fun c h => hc c (by simp [h])) _ (nAbsorbPerm_length h _ _)]
    rfl

/-- The value of a compact input. -/
def CompactInput.val (w : Cell → ZMod p) (c : CompactInput p) : List (ZMod p) × ℕ × Bool :=
  (c.inputs.map (at' w), (at' w c.len).val, decide (at' w c.isFinal = 1))

/-- A compact input is well formed: `is_final` is a bit, `len ≤ RATE`, and only a final row may be short (this is what
`add_validation_constraints` documents). -/
def CompactInput.Ok (R : ℕ) (w : Cell → ZMod p) (c : CompactInput p) : Prop :=
  (at' w c.isFinal = 0 ∨ at' w c.isFinal = 1) ∧ (at' w c.len).val ≤ R ∧ (at' w c.isFinal = 0 → (at' w c.len).val = R)

theorem compactLoop_sound {h : Hasher p} {R : ℕ} (hs : WFSpec h.spec (R + 1)) (hl : h.initState.length = R + 1)
    (hR : 1 ≤ R) (hRp : R < p) (cs : List (CompactInput p)) (st : List (AV p)) (hst : st.length = R + 1)
    (hci : ∀ c ∈ cs, c.inputs.length = R) :
    Sound tbl (compactLoop h R cs st) (fun w rs => rs.map Prod.snd = cs.map (·.isFinal) ∧
      (HasherOk h.spec R w h → (∀ c ∈ cs, c.Ok R w) → ∀ blocks : List (List (ZMod p)), (∀ b ∈ blocks, b.length = R) →
        st.map (at' w) = blocks.foldl (nAbsorbPerm h.spec) (spongeInit R) →
        rs.map (fun r => at' w r.1) = compactSpec (nPerm h.spec) R blocks.flatten (cs.map (CompactInput.val w)))) := by
  induction cs generalizing st with
  | nil => exact fun s => Snd.pure fun w _ => ⟨rfl, fun _ _ _ _ _ => rfl⟩
  | cons c cs ih =>
    intro s
    refine Snd.bind (isEqual_sound _ _ s) fun full s1 _ => ?_
    refine Snd.bindR (permutation_sound_some hs hR hRp st c.inputs c.len hst s1) (permutation_ret _ _ _ _ _)
      fun st1 s2 _ hst1 => ?_
    rw [hs.mds] at hst1
    refine Snd.bindR (permutation_sound_none hs R st1 [] hst1 s2) (permutation_ret _ _ _ _ _) fun st2 s3 _ hst2 => ?_
    refine Snd.unwrap fun h2 hh2 => Snd.unwrap fun h1 hh1 => ?_
    refine Snd.bind (select_sound _ _ _ s3) fun hash s4 _ => ?_
    refine Snd.bindR (stateSelect_sound c.isFinal st1 h.initState (by rw [hst1, hl]) s4) (stateSelect_ret _ _ _)
      fun st3 s5 _ hst3 => ?_
    refine Snd.bind (ih st3 (by rw [hst3, hst1]) (fun c h => hci c (by simp [h])) s5) fun r s6 _ => Snd.pure ?_
    rintro w _ ⟨hfin, hrec⟩ ⟨hs1, hs0⟩ ⟨a, b, d, ha, hb, hd, hsel⟩ ⟨-, hp2⟩ hp1 ⟨e, f, he, hf, hfull⟩
    simp only [QOk] at ha hb hd he hf
    subst ha hb hd he hf
    refine ⟨by simp [hfin], fun hH hok blocks hblocks hbs => ?_⟩
    obtain ⟨hbit, hlen, hshort⟩ := hok c (by simp)
    have hp1 := hp1 hlen
    have hinit : (spongeInit R : List (ZMod p)).length = R + 1 := spongeInit_length R
    have hbl : (blocks.foldl (nAbsorbPerm h.spec) (spongeInit R)).length = R + 1 := foldl_absorb_length hs _ hinit
    have htake : (c.inputs.map (at' w) ++ List.replicate R 0).take (at' w c.len).val =
        (c.inputs.map (at' w)).take (at' w c.len).val := by
      rw [List.take_append_of_le_length (by simpa [hci c (by simp)] using hlen)]
    rw [htake, hbs] at hp1
    have e1 : at' w h1 = (st1.map (at' w)).getD 1 0 := by simp [List.getD, hh1]
    have e2 : at' w h2 = (st2.map (at' w)).getD 1 0 := by simp [List.getD, hh2]
    have hclen : c.inputs.length = R := hci c (by simp)
    -- the hash of this row
    have hhash : at' w hash = spongeHash (nPerm h.spec) R (blocks.flatten ++ (c.inputs.map (at' w)).take (at' w c.len).val) := by
      rw [spongeHash, spongeHash_blocks hR hs blocks hblocks _ _ hinit, hsel, hfull]
      by_cases hR' : (at' w c.len).val = R
      · have : at' w c.len = ((R : ℕ) : ZMod p) := by rw [← hR', ZMod.natCast_zmod_val]
        rw [if_pos this, mul_one, sub_add_cancel, e2, hp2, hp1]
        have hb : ((c.inputs.map (at' w)).take (at' w c.len).val).length = R := by simp [hclen, hR']
        have := spongeAbsorb_full hR hs _ _ [] hbl hb
        rw [List.append_nil] at this
        rw [this, spongeAbsorb_last hR hs _ _ (nAbsorbPerm_length hs _ _) (by simp; omega)]
        rfl
      · have : at' w c.len ≠ ((R : ℕ) : ZMod p) := by
          intro h'
          rw [h', ZMod.val_natCast_of_lt hRp] at hR'
          exact hR' rfl
        rw [if_neg this, mul_zero, zero_add, e1, hp1, spongeAbsorb_last hR hs _ _ hbl (by simp; omega)]
    rw [List.map_cons, List.map_cons, CompactInput.val, compactSpec, hhash]
    congr 1
    rcases hbit with h0 | h1'
    · have hval : (at' w c.len).val = R := hshort h0
      have hne : ¬ at' w c.isFinal = 1 := by rw [h0]; exact zero_ne_one
      rw [if_neg (by simpa using hne)]
      have := hrec hH (fun c h => hok c (by simp [h])) (blocks ++ [(c.inputs.map (at' w)).take (at' w c.len).val])
        (by intro b hb; rcases List.mem_append.1 hb with hb | hb
            · exact hblocks b hb
            · rw [List.mem_singleton.1 hb]; simp [hclen, hval])
        (by rw [hs0 h0, hp1, List.foldl_append]; rfl)
      rw [this, List.flatten_append]
      simp
    · rw [if_pos (by simpa using h1')]
      exact hrec hH (fun c h => hok c (by simp [h])) [] (by simp) (by rw [hs1 h1', hH.1]; rfl)

/-- `hash_compact_input`. -/
theorem Hasher.hashCompact_sound {h : Hasher p} {R : ℕ} (hs : WFSpec h.spec (R + 1)) (hl : h.initState.length = R + 1)
    (hR : 1 ≤ R) (hRp : R < p) (cs : List (CompactInput p)) (hci : ∀ c ∈ cs, c.inputs.length = R) :
    Sound tbl (h.hashCompact R cs) (fun w rs => rs.map Prod.snd = cs.map (·.isFinal) ∧
      (HasherOk h.spec R w h → (∀ c ∈ cs, c.Ok R w) →
        rs.map (fun r => at' w r.1) = compactSpec (nPerm h.spec) R [] (cs.map (CompactInput.val w)))) := by
  intro s
  refine (compactLoop_sound hs hl hR hRp cs h.initState hl hci s).weaken ?_
  rintro w r _ ⟨h1, h2⟩
  exact ⟨h1, fun hH hok => h2 hH hok [] (by simp) hH.1⟩

/-! ### chunk inputs -/

/-- Specification for rows `(chunks, is_final)`: zero for a non-final row, and the hash of all elements of the group for
a final row. -/
def chunkSpec (f : List (ZMod p) → List (ZMod p)) (R : ℕ) : List (ZMod p) → List (List (List (ZMod p)) × Bool) →
    List (ZMod p)
  | _, [] => []
  | acc, (xs, fin) :: rows =>
    (if fin then spongeHash f R (acc ++ xs.flatten) else 0) ::
      chunkSpec f R (if fin then [] else acc ++ xs.flatten) rows

/-- The value of a chunk input. -/
def ChunkInput.val (w : Cell → ZMod p) (c : ChunkInput p) : List (List (ZMod p)) × Bool :=
  (c.inputs.map (fun l => l.map (at' w)), decide (at' w c.isFinal = 1))

theorem chunkLoop_sound {h : Hasher p} {R : ℕ} (hs : WFSpec h.spec (R + 1)) (hl : h.initState.length = R + 1)
    (hR : 1 ≤ R) (zero : AV p) (cs : List (ChunkInput p)) (st : List (AV p)) (hst : st.length = R + 1)
    (hci : ∀ c ∈ cs, ∀ i ∈ c.inputs, i.length = R) :
    Sound tbl (chunkLoop h R zero cs st) (fun w rs => rs.map Prod.snd = cs.map (·.isFinal) ∧
      (HasherOk h.spec R w h → at' w zero = 0 → (∀ c ∈ cs, at' w c.isFinal = 0 ∨ at' w c.isFinal = 1) →
        ∀ blocks : List (List (ZMod p)), (∀ b ∈ blocks, b.length = R) →
        st.map (at' w) = blocks.foldl (nAbsorbPerm h.spec) (spongeInit R) →
        rs.map (fun r => at' w r.1) = chunkSpec (nPerm h.spec) R blocks.flatten (cs.map (ChunkInput.val w)))) := by
  induction cs generalizing st with
  | nil => exact fun s => Snd.pure fun w _ => ⟨rfl, fun _ _ _ _ _ _ => rfl⟩
  | cons c cs ih =>
    intro s
    refine Snd.bindR (absorbChunks_sound hs R c.inputs st hst s) (absorbChunks_ret _ _ _ _ hst hs.mds)
      fun st1 s1 _ hst1 => ?_
    refine Snd.bindR (permutation_sound_none hs R st1 [] hst1 s1) (permutation_ret _ _ _ _ _) fun out s2 _ hout => ?_
    refine Snd.unwrap fun o1 ho1 => ?_
    refine Snd.bind (select_sound _ _ _ s2) fun hash s3 _ => ?_
    refine Snd.bindR (stateSelect_sound c.isFinal st1 h.initState (by rw [hst1, hl]) s3) (stateSelect_ret _ _ _)
      fun st3 s4 _ hst3 => ?_
    refine Snd.bind (ih st3 (by rw [hst3, hst1]) (fun c h => hci c (by simp [h])) s4) fun r s5 _ => Snd.pure ?_
    rintro w _ ⟨hfin, hrec⟩ ⟨hs1, hs0⟩ ⟨a, b, d, ha, hb, hd, hsel⟩ ⟨-, hp2⟩ hp1
    simp only [QOk] at ha hb hd
    subst ha hb hd
    refine ⟨by simp [hfin], fun hH hz hok blocks hblocks hbs => ?_⟩
    have hbit := hok c (by simp)
    have hinit : (spongeInit R : List (ZMod p)).length = R + 1 := spongeInit_length R
    have hnew : ∀ b ∈ blocks ++ c.inputs.map (fun l => l.map (at' w)), b.length = R := by
      intro b hb
      rcases List.mem_append.1 hb with hb | hb
      · exact hblocks b hb
      · obtain ⟨l, hl, rfl⟩ := List.mem_map.1 hb
        rw [List.length_map]; exact hci c (by simp) l hl
    have hst1v : st1.map (at' w) = (blocks ++ c.inputs.map (fun l => l.map (at' w))).foldl (nAbsorbPerm h.spec) (spongeInit R) := by
      rw [hp1, hbs, List.foldl_append]
    rw [List.map_cons, List.map_cons, ChunkInput.val, chunkSpec]
    rcases hbit with h0 | h1
    · have hne : ¬ at' w c.isFinal = 1 := by rw [h0]; exact zero_ne_one
      simp only [hne, decide_false, Bool.false_eq_true, if_false]
      rw [hsel, h0, hz, mul_zero, zero_add]
      congr 1
      have := hrec hH hz (fun c h => hok c (by simp [h])) _ hnew (by rw [hs0 h0, hst1v])
      rw [this, List.flatten_append]
    · simp only [h1, decide_true, if_true]
      rw [hsel, h1, mul_one, sub_add_cancel]
      congr 1
      · have e1 : at' w o1 = (out.map (at' w)).getD 1 0 := by simp [List.getD, ho1]
        rw [e1, hp2, hst1v, spongeHash, ← List.flatten_append]
        have := spongeHash_blocks hR hs _ hnew [] _ hinit
        rw [List.append_nil] at this
        rw [this, spongeAbsorb_last hR hs _ _ (foldl_absorb_length hs _ hinit) (by simp; omega)]
        rfl
      · exact hrec hH hz (fun c h => hok c (by simp [h])) [] (by simp) (by rw [hs1 h1, hH.1]; rfl)

/-- `hash_compact_chunk_inputs`. -/
theorem Hasher.hashChunks_sound {h : Hasher p} {R : ℕ} (hs : WFSpec h.spec (R + 1)) (hl : h.initState.length = R + 1)
    (hR : 1 ≤ R) (cs : List (ChunkInput p)) (hci : ∀ c ∈ cs, ∀ i ∈ c.inputs, i.length = R) :
    Sound tbl (h.hashChunks R cs) (fun w rs => rs.map Prod.snd = cs.map (·.isFinal) ∧
      (HasherOk h.spec R w h → (∀ c ∈ cs, at' w c.isFinal = 0 ∨ at' w c.isFinal = 1) →
        rs.map (fun r => at' w r.1) = chunkSpec (nPerm h.spec) R [] (cs.map (ChunkInput.val w)))) := by
  intro s
  refine Snd.bind (loadZero_sound s) fun z s1 _ => ?_
  refine (chunkLoop_sound hs hl hR z cs h.initState hl hci s1).weaken ?_
  rintro w r _ ⟨h1, h2⟩ hz
  exact ⟨h1, fun hH hok => h2 hH hz hok [] (by simp) hH.1⟩

/-! ### the validator of compact inputs -/

/-- What `add_validation_constraints` really enforces: `is_final = 0` **and** `len ≠ RATE`. -/
theorem CompactInput.validate_sound (R : ℕ) (hL : RangeOk p L) (hb : safeBits L (R + 1) + L ≤ capacity p) (c : CompactInput p) :
    Sound (RangeTable p L) (c.validate L R) (fun w _ => (at' w c.isFinal = 0 ∨ at' w c.isFinal = 1) →
      at' w c.isFinal = 0 ∧ at' w c.len ≠ ((R : ℕ) : ZMod p)) := by
  intro s
  refine Snd.bind (isLessThanSafe_sound c.len (R + 1) hL hb s) fun _ s1 _ => ?_
  refine Snd.bind (isEqual_sound _ _ s1) fun full s2 _ => ?_
  refine Snd.bind (or_sound _ _ s2) fun inv s3 _ => ?_
  refine (assertIsConst_sound inv 0 s3).weaken ?_
  rintro w _ _ h ⟨a, b, ha, hb, h2⟩ ⟨d, e, hd, he, h3⟩ _ hbit
  simp only [QOk] at ha hb hd he
  subst ha hb hd he
  rw [h] at h2
  rcases hbit with h0 | h1
  · refine ⟨h0, fun h' => ?_⟩
    rw [h0, h3, if_pos h'] at h2
    simp at h2
  · rw [h1] at h2
    exfalso
    ring_nf at h2
    exact zero_ne_one h2

end H2
