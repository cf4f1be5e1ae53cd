import Verif.SafeTypes.Rel
import Verif.Poseidon.Model

/-! # Relational lemmas for the Poseidon chip -/

set_option autoImplicit false
set_option linter.unusedSectionVars false
namespace H2
variable {p : ℕ} [Fact p.Prime] {k : Bool}

theorem pDefault_rel (T : ℕ) : Rel k (pDefault T : M p _) (pDefault T) (RAs k) := by
  unfold pDefault
  exact (assertM_rel fun _ => rfl).bind fun _ _ _ => loadConstants_rel _

theorem pow5c_rel {x x' : AV p} (h : RA k x x') (c : ZMod p) : Rel k (pow5c x c) (pow5c x' c) (RA k) := by
  unfold pow5c
  exact (mul_rel h.q h.q).bind fun _ _ h2 => (mul_rel h2.q h2.q).bind fun _ _ h4 =>
    mulAdd_rel h.q h4.q (RQ.constant_rfl _)

theorem sboxFull_rel {xs xs' : List (AV p)} (h : RAs k xs xs') (cs : List (ZMod p)) :
    Rel k (sboxFull xs cs) (sboxFull xs' cs) (RAs k) := by
  induction h generalizing cs with
  | nil => exact Rel.pure .nil
  | cons h hs ih =>
    cases cs with
    | nil => exact Rel.pure (.cons h hs)
    | cons c cs => exact (pow5c_rel h c).bind fun _ _ h1 => (ih cs).bind fun _ _ h2 => Rel.pure (.cons h1 h2)

theorem sboxPart_rel {xs xs' : List (AV p)} (h : RAs k xs xs') (c : ZMod p) :
    Rel k (sboxPart xs c) (sboxPart xs' c) (RAs k) := by
  cases h with
  | nil => exact Rel.panic
  | cons h hs => exact (pow5c_rel h c).bind fun _ _ h1 => Rel.pure (.cons h1 hs)

theorem applyMds_rel {xs xs' : List (AV p)} (h : RAs k xs xs') (m : List (List (ZMod p))) :
    Rel k (applyMds xs m) (applyMds xs' m) (RAs k) := by
  induction m with
  | nil => exact Rel.pure .nil
  | cons r m ih =>
    exact (innerProduct_rel (exist_rel h) (consts_rel r)).bind fun _ _ h1 => ih.bind fun _ _ h2 => Rel.pure (.cons h1 h2)

theorem sparseTail_rel {s s' : AV p} (h0 : RA k s s') (cs : List (ZMod p)) {xs xs' : List (AV p)} (h : RAs k xs xs') :
    Rel k (sparseTail s cs xs) (sparseTail s' cs xs') (RAs k) := by
  induction cs generalizing xs xs' with
  | nil => unfold sparseTail; exact Rel.pure .nil
  | cons c cs ih =>
    cases h with
    | nil => exact Rel.pure .nil
    | cons h hs =>
      exact (mulAdd_rel h0.q (RQ.constant_rfl _) (RA.q h)).bind fun _ _ h1 => (ih hs).bind fun _ _ h2 =>
        Rel.pure (.cons h1 h2)

theorem RAs.tail {xs xs' : List (AV p)} (h : RAs k xs xs') : RAs k xs.tail xs'.tail := by
  cases h with
  | nil => exact .nil
  | cons _ h => exact h

theorem applySparse_rel {xs xs' : List (AV p)} (h : RAs k xs xs') (m : SparseMDS p) :
    Rel k (applySparse xs m) (applySparse xs' m) (RAs k) := by
  unfold applySparse
  exact (innerProduct_rel (exist_rel h) (consts_rel _)).bind fun _ _ h1 => (unwrapO_rel (h.get? _)).bind fun _ _ h0 =>
    (sparseTail_rel h0 _ (RAs.tail h)).bind fun _ _ h2 => Rel.pure (.cons h1 h2)

theorem fullRounds_rel (mds cs : List (List (ZMod p))) {xs xs' : List (AV p)} (h : RAs k xs xs') :
    Rel k (fullRounds mds cs xs) (fullRounds mds cs xs') (RAs k) := by
  induction cs generalizing xs xs' with
  | nil => exact Rel.pure h
  | cons c cs ih => exact (sboxFull_rel h c).bind fun _ _ h => (applyMds_rel h _).bind fun _ _ h => ih h

theorem partRounds_rel (l : List (ZMod p × SparseMDS p)) {xs xs' : List (AV p)} (h : RAs k xs xs') :
    Rel k (partRounds l xs) (partRounds l xs') (RAs k) := by
  induction l generalizing xs xs' with
  | nil => exact Rel.pure h
  | cons c cs ih => exact (sboxPart_rel h _).bind fun _ _ h => (applySparse_rel h _).bind fun _ _ h => ih h

theorem unwrapEq_rel {α : Type} (o : Option α) : Rel k (unwrap o : M p α) (unwrap o) (fun a b => a = b) := by
  cases o with
  | none => exact Rel.panic
  | some a => exact Rel.pure rfl

theorem permRounds_rel (sp : PSpec p) {xs xs' : List (AV p)} (h : RAs k xs xs') :
    Rel k (permRounds sp xs) (permRounds sp xs') (RAs k) := by
  unfold permRounds
  refine (fullRounds_rel _ _ h).bind fun _ _ h => ?_
  refine (unwrapEq_rel _).bind ?_
  rintro c _ rfl
  refine (sboxFull_rel h c).bind fun _ _ h => (applyMds_rel h _).bind fun _ _ h => (partRounds_rel _ h).bind fun _ _ h =>
    (fullRounds_rel _ _ h).bind fun _ _ h => ?_
  rw [h.length_eq]
  exact (sboxFull_rel h _).bind fun _ _ h => applyMds_rel h _

theorem absorbRest_rel (b : Bool) {xs xs' : List (AV p)} (h : RAs k xs xs') (cs : List (ZMod p)) :
    Rel k (absorbRest b xs cs) (absorbRest b xs' cs) (RAs k) := by
  induction h generalizing cs b with
  | nil => unfold absorbRest; exact Rel.pure .nil
  | cons h hs ih =>
    cases cs with
    | nil => exact Rel.pure (.cons h hs)
    | cons c cs =>
      exact (add_rel (RA.q h) (RQ.constant_rfl _)).bind fun _ _ h1 => (ih _ cs).bind fun _ _ h2 =>
        Rel.pure (.cons h1 h2)

theorem absorbTail_rel {xs xs' : List (AV p)} (h : RAs k xs xs') (cs : List (ZMod p)) {is is' : List (AV p)}
    (hi : RAs k is is') : Rel k (absorbTail xs cs is) (absorbTail xs' cs is') (RAs k) := by
  induction h generalizing cs is is' with
  | nil => unfold absorbTail; exact absorbRest_rel _ .nil _
  | cons h hs ih =>
    cases cs with
    | nil =>
      cases hi with
      | nil => exact absorbRest_rel _ (.cons h hs) _
      | cons _ _ => exact absorbRest_rel _ (.cons h hs) _
    | cons c cs =>
      cases hi with
      | nil => exact absorbRest_rel _ (.cons h hs) _
      | cons h1 h2 =>
        exact (sum_rel (.cons (RA.q h) (.cons (RA.q h1) (.cons (RQ.constant_rfl _) .nil)))).bind fun _ _ h3 =>
          (ih cs h2).bind fun _ _ h4 => Rel.pure (.cons h3 h4)

theorem absorb_rel {xs xs' is is' : List (AV p)} (h : RAs k xs xs') (hi : RAs k is is') (cs : List (ZMod p)) :
    Rel k (absorb xs is cs) (absorb xs' is' cs) (RAs k) := by
  unfold absorb
  refine (assertM_rel fun _ => by rw [h.length_eq, hi.length_eq]).bind fun _ _ _ => ?_
  cases h with
  | nil => cases cs <;> exact Rel.panic
  | cons h hs =>
    cases cs with
    | nil => exact Rel.panic
    | cons c cs =>
      exact (add_rel (RA.q h) (RQ.constant_rfl _)).bind fun _ _ h1 => (absorbTail_rel hs cs hi).bind fun _ _ h2 =>
        Rel.pure (.cons h1 h2)

theorem addConsts_rel {xs xs' : List (AV p)} (h : RAs k xs xs') (cs : List (ZMod p)) :
    Rel k (addConsts xs cs) (addConsts xs' cs) (RAs k) := by
  induction h generalizing cs with
  | nil => unfold addConsts; exact Rel.pure .nil
  | cons h hs ih =>
    cases cs with
    | nil => exact Rel.pure (.cons h hs)
    | cons c cs =>
      exact (add_rel (RA.q h) (RQ.constant_rfl _)).bind fun _ _ h1 => (ih cs).bind fun _ _ h2 =>
        Rel.pure (.cons h1 h2)

theorem absorbVarLoop_rel {l l' : List (AV p × AV p)} (hl : List.Forall₂ (fun e e' => RA k e.1 e'.1 ∧ RA k e.2 e'.2) l l')
    {xs xs' : List (AV p)} (h : RAs k xs xs') : Rel k (absorbVarLoop xs l) (absorbVarLoop xs' l') (RAs k) := by
  induction hl generalizing xs xs' with
  | nil => unfold absorbVarLoop; exact Rel.pure h
  | @cons e e' _ _ he _ ih =>
    obtain ⟨pd, ind⟩ := e
    obtain ⟨pd', ind'⟩ := e'
    cases h with
    | nil => exact Rel.panic
    | cons h hs =>
      cases hs with
      | nil => exact (add_rel (RA.q h) (RA.q he.1)).bind fun _ _ h1 => (ih .nil).bind fun _ _ h2 => Rel.pure (.cons h1 h2)
      | cons h' hs =>
        exact (add_rel (RA.q h) (RA.q he.1)).bind fun _ _ h1 => (add_rel (RA.q h') (RA.q he.2)).bind fun _ _ h3 =>
          (ih (.cons h3 hs)).bind fun _ _ h2 => Rel.pure (.cons h1 h2)

theorem absorbVarEnd_rel {xs xs' ms ms' : List (AV p)} (h : RAs k xs xs') (hm : RAs k ms ms') :
    Rel k (absorbVarEnd xs ms) (absorbVarEnd xs' ms') (RAs k) := by
  unfold absorbVarEnd
  refine (unwrapO_rel (hm.get? _)).bind fun _ _ h0 => (not_rel (RA.q h0)).bind fun _ _ he => ?_
  cases h with
  | nil => exact Rel.panic
  | cons h hs =>
    cases hs with
    | nil => exact Rel.panic
    | cons h' hs => exact (add_rel (RA.q h') he.q).bind fun _ _ h1 => Rel.pure (.cons h (.cons h1 hs))

theorem absorbVar_rel (R : ℕ) {xs xs' is is' : List (AV p)} {len len' : AV p} (h : RAs k xs xs') (hi : RAs k is is')
    (hl : RA k len len') (cs : List (ZMod p)) :
    Rel k (absorbVar R xs is len cs) (absorbVar R xs' is' len' cs) (RAs k) := by
  unfold absorbVar
  refine (addConsts_rel h cs).bind fun _ _ h => (dec_rel hl.q).bind fun _ _ hx => (idxToIndicator_rel hx.q R).bind fun _ _ ⟨hind, _⟩ =>
    (partialSums_rel (exist_rel (List.rel_reverse hind))).bind fun _ _ hm => ?_
  have hm' := List.rel_reverse hm
  refine (maskBytes_rel (zip_rel hi hm')).bind fun _ _ hp => ?_
  cases h with
  | nil => exact Rel.panic
  | cons h hs => exact (absorbVarLoop_rel (zip_rel hp hind) hs).bind fun _ _ h2 => absorbVarEnd_rel (.cons h h2) hm'

theorem padInputs_rel (R : ℕ) {is is' : List (AV p)} (hi : RAs k is is') :
    Rel k (padInputs R is) (padInputs R is') (RAs k) := by
  induction R generalizing is is' with
  | zero => exact Rel.pure .nil
  | succ R ih =>
    cases hi with
    | nil => exact loadZero_rel.bind fun _ _ h => (ih .nil).bind fun _ _ h2 => Rel.pure (.cons h h2)
    | cons h hs => exact (ih hs).bind fun _ _ h2 => Rel.pure (.cons h h2)

theorem permutation_rel (sp : PSpec p) (R : ℕ) {xs xs' is is' : List (AV p)} {len len' : Option (AV p)} (h : RAs k xs xs')
    (hi : RAs k is is') (hl : RO k len len') :
    Rel k (permutation sp R xs is len) (permutation sp R xs' is' len') (RAs k) := by
  unfold permutation
  refine (unwrapEq_rel _).bind ?_
  rintro c _ rfl
  cases hl with
  | none => exact (absorb_rel h hi c).bind fun _ _ h => (assertM_rel fun _ => rfl).bind fun _ _ _ => permRounds_rel sp h
  | some hl => exact (padInputs_rel R hi).bind fun _ _ hp => (absorbVar_rel R h hp hl c).bind fun _ _ h =>
      (assertM_rel fun _ => rfl).bind fun _ _ _ => permRounds_rel sp h

theorem stateSelect_rel {sel sel' : AV p} (hs : RA k sel sel') {xs xs' ts ts' : List (AV p)} (h : RAs k xs xs')
    (ht : RAs k ts ts') : Rel k (stateSelect sel xs ts) (stateSelect sel' xs' ts') (RAs k) := by
  induction h generalizing ts ts' with
  | nil => unfold stateSelect; exact Rel.pure .nil
  | cons h hh ih =>
    cases ht with
    | nil => exact Rel.pure (.cons h hh)
    | cons t tt => exact (select_rel (RA.q t) (RA.q h) hs.q).bind fun _ _ h1 => (ih tt).bind fun _ _ h2 => Rel.pure (.cons h1 h2)

theorem absorbChunks_rel (sp : PSpec p) (R : ℕ) {cs cs' : List (List (AV p))} (hc : List.Forall₂ (RAs k) cs cs')
    {xs xs' : List (AV p)} (h : RAs k xs xs') : Rel k (absorbChunks sp R cs xs) (absorbChunks sp R cs' xs') (RAs k) := by
  induction hc generalizing xs xs' with
  | nil => exact Rel.pure h
  | cons hc _ ih => exact (permutation_rel sp R h hc .none).bind fun _ _ h => ih h

theorem squeezeEnd_rel (sp : PSpec p) (R n : ℕ) {xs xs' : List (AV p)} (h : RAs k xs xs') :
    Rel k (squeezeEnd sp R n xs) (squeezeEnd sp R n xs') (RAs k) := by
  unfold squeezeEnd
  exact Rel.ite Iff.rfl (fun _ => permutation_rel sp R h .nil .none) (fun _ => Rel.pure h)

theorem fixLenSqueeze_rel (sp : PSpec p) (R : ℕ) {is is' xs xs' : List (AV p)} (hi : RAs k is is') (h : RAs k xs xs') :
    Rel k (fixLenSqueeze sp R is xs) (fixLenSqueeze sp R is' xs') (fun a b => RAs k a.1 b.1 ∧ RA k a.2 b.2) := by
  unfold fixLenSqueeze chunksOf
  rw [hi.length_eq]
  refine (assertM_rel fun _ => rfl).bind fun _ _ _ => (absorbChunks_rel sp R (chunksAux_rel _ _ hi) h).bind fun _ _ h =>
    (squeezeEnd_rel sp R _ h).bind fun _ _ h => (unwrapO_rel (h.get? _)).bind fun _ _ h0 => Rel.pure ⟨h, h0⟩

/-- Related hashers. -/
def RHasher (k : Bool) (a b : Hasher p) : Prop := a.spec = b.spec ∧ RAs k a.initState b.initState ∧ RA k a.emptyHash b.emptyHash

theorem Hasher.init_rel (sp : PSpec p) (T R : ℕ) : Rel k (Hasher.init sp T R) (Hasher.init sp T R) (RHasher k) := by
  unfold Hasher.init
  exact (pDefault_rel T).bind fun _ _ h => (fixLenSqueeze_rel sp R .nil h).bind fun _ _ h2 => Rel.pure ⟨rfl, h, h2.2⟩

theorem Hasher.hashFixLen_rel {h h' : Hasher p} (hh : RHasher k h h') (R : ℕ) {is is' : List (AV p)} (hi : RAs k is is') :
    Rel k (h.hashFixLen R is) (h'.hashFixLen R is') (RA k) := by
  unfold Hasher.hashFixLen
  rw [hh.1]
  exact (fixLenSqueeze_rel _ R hi hh.2.1).bind fun _ _ h => Rel.pure h.2

theorem varLenStep_rel (sp : PSpec p) (R : ℕ) {np np' ll ll' : AV p} (h1 : RA k np np') (h2 : RA k ll ll') (i : ℕ)
    {c c' st st' res res' : List (AV p)} (hc : RAs k c c') (hst : RAs k st st') (hres : RAs k res res') :
    Rel k (varLenStep sp R np ll i c st res) (varLenStep sp R np' ll' i c' st' res')
      (fun a b => RAs k a.1 b.1 ∧ RAs k a.2 b.2) := by
  unfold varLenStep
  exact (isEqual_rel h1.q (RQ.constant_rfl _)).bind fun _ _ hl => (select_rel h2.q (RQ.constant_rfl _) hl.q).bind fun _ _ hlc =>
    (permutation_rel sp R hst hc (.some hlc)).bind fun _ _ hs => (stateSelect_rel hl hres hs).bind fun _ _ hr => Rel.pure ⟨hs, hr⟩

theorem varLenLoop_rel (sp : PSpec p) (R : ℕ) {np np' ll ll' : AV p} (h1 : RA k np np') (h2 : RA k ll ll') (i : ℕ)
    {cs cs' : List (List (AV p))} (hc : List.Forall₂ (RAs k) cs cs') {st st' res res' : List (AV p)} (hst : RAs k st st')
    (hres : RAs k res res') :
    Rel k (varLenLoop sp R np ll i cs st res) (varLenLoop sp R np' ll' i cs' st' res')
      (fun a b => RAs k a.1 b.1 ∧ RAs k a.2 b.2) := by
  induction hc generalizing i st st' res res' with
  | nil => exact Rel.pure ⟨hst, hres⟩
  | cons hc _ ih => exact (varLenStep_rel sp R h1 h2 i hc hst hres).bind fun _ _ h => ih _ h.1 h.2

theorem varLenExtra_rel (sp : PSpec p) (R : ℕ) {np np' : AV p} (h1 : RA k np np') (m : ℕ) {st st' res res' : List (AV p)}
    (hst : RAs k st st') (hres : RAs k res res') :
    Rel k (varLenExtra sp R np m st res) (varLenExtra sp R np' m st' res') (RAs k) := by
  unfold varLenExtra
  refine Rel.ite Iff.rfl (fun _ => ?_) (fun _ => Rel.pure hres)
  exact (isEqual_rel h1.q (RQ.constant_rfl _)).bind fun _ _ hl => loadZero_rel.bind fun _ _ hz =>
    (permutation_rel sp R hst .nil (.some hz)).bind fun _ _ hs => stateSelect_rel hl hres hs

theorem Hasher.hashVarLen_rel (L : ℕ) {h h' : Hasher p} (hh : RHasher k h h') (R : ℕ) {is is' : List (AV p)} (hi : RAs k is is')
    {len len' : AV p} (hl : RA k len len') : Rel k (h.hashVarLen L R is len) (h'.hashVarLen L R is' len') (RA k) := by
  unfold Hasher.hashVarLen chunksOf
  rw [hh.1, hi.length_eq]
  refine Rel.ite Iff.rfl (fun _ => Rel.pure hh.2.2) (fun _ => ?_)
  refine (divMod_rel L hl.q R _).bind fun _ _ hd => (inc_rel hd.1.q).bind fun _ _ hn =>
    (varLenLoop_rel _ R hn hd.2 0 (chunksAux_rel _ _ hi) hh.2.1 hh.2.1).bind fun _ _ hv =>
    (varLenExtra_rel _ R hn _ hv.1 hv.2).bind fun _ _ hr => unwrapO_rel (hr.get? _)

/-- Related compact inputs. -/
def RCompact (k : Bool) (a b : CompactInput p) : Prop := RAs k a.inputs b.inputs ∧ RA k a.isFinal b.isFinal ∧ RA k a.len b.len

theorem CompactInput.validate_rel (L R : ℕ) {c c' : CompactInput p} (h : RCompact k c c') :
    Rel k (c.validate L R) (c'.validate L R) (fun _ _ => True) := by
  unfold CompactInput.validate
  exact (isLessThanSafe_rel L h.2.2 _).bind fun _ _ _ => (isEqual_rel h.2.2.q (RQ.constant_rfl _)).bind fun _ _ hf =>
    (or_rel h.2.1.q hf.q).bind fun _ _ hi => (assertIsConst_rel hi 0).weaken fun _ _ _ => trivial

theorem compactLoop_rel {h h' : Hasher p} (hh : RHasher k h h') (R : ℕ) {cs cs' : List (CompactInput p)}
    (hc : List.Forall₂ (RCompact k) cs cs') {st st' : List (AV p)} (hst : RAs k st st') :
    Rel k (compactLoop h R cs st) (compactLoop h' R cs' st')
      (List.Forall₂ (fun a b => RA k a.1 b.1 ∧ RA k a.2 b.2)) := by
  induction hc generalizing st st' with
  | nil => exact Rel.pure .nil
  | cons hc _ ih =>
    simp only [compactLoop]
    rw [hh.1]
    exact (isEqual_rel hc.2.2.q (RQ.constant_rfl _)).bind fun _ _ hf =>
      (permutation_rel _ R hst hc.1 (.some hc.2.2)).bind fun _ _ h1 => (permutation_rel _ R h1 .nil .none).bind fun _ _ h2 =>
      (unwrapO_rel (h2.get? _)).bind fun _ _ g2 => (unwrapO_rel (h1.get? _)).bind fun _ _ g1 =>
      (select_rel g2.q g1.q hf.q).bind fun _ _ hs => (stateSelect_rel hc.2.1 h1 hh.2.1).bind fun _ _ h3 =>
      (ih h3).bind fun _ _ hr => Rel.pure (.cons ⟨hs, hc.2.1⟩ hr)

/-- Related chunk inputs. -/
def RChunk (k : Bool) (a b : ChunkInput p) : Prop := List.Forall₂ (RAs k) a.inputs b.inputs ∧ RA k a.isFinal b.isFinal

theorem chunkLoop_rel {h h' : Hasher p} (hh : RHasher k h h') (R : ℕ) {z z' : AV p} (hz : RA k z z')
    {cs cs' : List (ChunkInput p)} (hc : List.Forall₂ (RChunk k) cs cs') {st st' : List (AV p)} (hst : RAs k st st') :
    Rel k (chunkLoop h R z cs st) (chunkLoop h' R z' cs' st')
      (List.Forall₂ (fun a b => RA k a.1 b.1 ∧ RA k a.2 b.2)) := by
  induction hc generalizing st st' with
  | nil => exact Rel.pure .nil
  | cons hc _ ih =>
    simp only [chunkLoop]
    rw [hh.1]
    exact (absorbChunks_rel _ R hc.1 hst).bind fun _ _ h1 => (permutation_rel _ R h1 .nil .none).bind fun _ _ h2 =>
      (unwrapO_rel (h2.get? _)).bind fun _ _ g2 =>
      (select_rel g2.q hz.q hc.2.q).bind fun _ _ hs => (stateSelect_rel hc.2 h1 hh.2.1).bind fun _ _ h3 =>
      (ih h3).bind fun _ _ hr => Rel.pure (.cons ⟨hs, hc.2⟩ hr)

theorem Hasher.hashCompact_rel {h h' : Hasher p} (hh : RHasher k h h') (R : ℕ) {cs cs' : List (CompactInput p)}
    (hc : List.Forall₂ (RCompact k) cs cs') : Rel k (h.hashCompact R cs) (h'.hashCompact R cs')
      (List.Forall₂ (fun a b => RA k a.1 b.1 ∧ RA k a.2 b.2)) := compactLoop_rel hh R hc hh.2.1

theorem Hasher.hashChunks_rel {h h' : Hasher p} (hh : RHasher k h h') (R : ℕ) {cs cs' : List (ChunkInput p)}
    (hc : List.Forall₂ (RChunk k) cs cs') : Rel k (h.hashChunks R cs) (h'.hashChunks R cs')
      (List.Forall₂ (fun a b => RA k a.1 b.1 ∧ RA k a.2 b.2)) :=
  loadZero_rel.bind fun _ _ hz => chunkLoop_rel hh R hz hc hh.2.1

end H2
