import Verif.Range.Rel
import Verif.BigInt.Model

/-! # Relational lemmas for the big integer routines -/

set_option autoImplicit false
set_option linter.unusedSectionVars false
namespace H2
variable {p : ℕ} [Fact p.Prime] {k : Bool}

/-- Related overflow integers: related limbs, the same bound. -/
structure RO' (k : Bool) (a b : OvInt p) : Prop where
  limbs : RAs k a.limbs b.limbs
  bits : a.maxBits = b.maxBits

/-- Related CRT integers. -/
structure RC (k : Bool) (a b : CrtInt p) : Prop where
  trunc : RO' k a.trunc b.trunc
  native : RA k a.native b.native
  value : RV k a.value b.value

theorem Rel.same {α : Type} {m : M p α} (h : ∀ s r s', m s = some (r, s') → s' = s)
    (h2 : ∀ s t r, m s = some (r, s) → m t = some (r, t)) : Rel k m m (fun x y => x = y) := by
  refine Rel.read h h fun s t _ r hr => ⟨fun _ => ⟨r, h2 _ _ _ hr⟩, fun r' hr' => ?_⟩
  have := h2 s t r hr
  rw [this] at hr'
  simpa using hr'

theorem unwrapS_rel {α : Type} (o : Option α) : Rel k (unwrap o : M p α) (unwrap o) (fun x y => x = y) :=
  unwrap_rel (fun _ a h => ⟨a, h⟩) (fun a b h1 h2 => by rw [h1] at h2; exact Option.some.inj h2)

theorem RV.w {x y : ZMod p} (h : RV k x y) : RQ k (.witness x) (.witness y) := h

/-- `unwrap` of optional data that is the same in prover mode. -/
theorem unwrapV_rel {α : Type} {o o' : Option α} (h : RV k o o') :
    Rel k (unwrap o : M p α) (unwrap o') (RV k) :=
  unwrap_rel (fun hk a ha => ⟨a, by rw [← h hk, ha]⟩) (fun a b h1 h2 hk => by
    rw [h hk, h2] at h1; exact (Option.some.inj h1).symm)

theorem subU_rel (a b : ℕ) : Rel k (subU a b : M p ℕ) (subU a b) (fun x y => x = y) := by
  unfold subU
  exact Rel.ite Iff.rfl (fun _ => Rel.pure rfl) (fun _ => Rel.panic)

theorem base1_rel (c : FpChip p) : Rel k c.base1 c.base1 (fun x y => x = y) := unwrapS_rel _

theorem zipEqM_rel {f f' : AV p → AV p → M p (AV p)}
    (hf : ∀ a a' b b', RA k a a' → RA k b b' → Rel k (f a b) (f' a' b') (RA k))
    {as as' bs bs' : List (AV p)} (ha : RAs k as as') (hb : RAs k bs bs') :
    Rel k (zipEqM f as bs) (zipEqM f' as' bs') (RAs k) := by
  induction ha generalizing bs bs' with
  | nil => cases hb with
    | nil => exact Rel.pure .nil
    | cons _ _ => exact Rel.panic
  | cons h _ ih => cases hb with
    | nil => exact Rel.panic
    | cons h2 h3 => exact (hf _ _ _ _ h h2).bind fun _ _ hr => (ih h3).bind fun _ _ hrs => Rel.pure (.cons hr hrs)

theorem mapAM_rel {f f' : AV p → M p (AV p)} (hf : ∀ a a', RA k a a' → Rel k (f a) (f' a') (RA k))
    {as as' : List (AV p)} (ha : RAs k as as') : Rel k (mapAM f as) (mapAM f' as') (RAs k) := by
  induction ha with
  | nil => exact Rel.pure .nil
  | cons h _ ih => exact (hf _ _ h).bind fun _ _ hr => ih.bind fun _ _ hrs => Rel.pure (.cons hr hrs)

theorem addNoCarry_rel {a a' b b' : OvInt p} (ha : RO' k a a') (hb : RO' k b b') :
    Rel k (addNoCarry a b) (addNoCarry a' b') (RO' k) :=
  (zipEqM_rel (fun _ _ _ _ h1 h2 => add_rel h1.q h2.q) ha.limbs hb.limbs).bind fun _ _ h =>
    Rel.pure ⟨h, by rw [ha.bits, hb.bits]⟩

theorem addNoCarryCrt_rel {a a' b b' : CrtInt p} (ha : RC k a a') (hb : RC k b b') :
    Rel k (addNoCarryCrt a b) (addNoCarryCrt a' b') (RC k) :=
  (addNoCarry_rel ha.trunc hb.trunc).bind fun _ _ h => (add_rel ha.native.q hb.native.q).bind fun _ _ h2 =>
    Rel.pure ⟨h, h2, fun hk => by simp only [ha.value hk, hb.value hk]⟩

theorem subNoCarry_rel {a a' b b' : OvInt p} (ha : RO' k a a') (hb : RO' k b b') :
    Rel k (subNoCarry a b) (subNoCarry a' b') (RO' k) :=
  (zipEqM_rel (fun _ _ _ _ h1 h2 => sub_rel h1.q h2.q) ha.limbs hb.limbs).bind fun _ _ h =>
    Rel.pure ⟨h, by rw [ha.bits, hb.bits]⟩

theorem subNoCarryCrt_rel {a a' b b' : CrtInt p} (ha : RC k a a') (hb : RC k b b') :
    Rel k (subNoCarryCrt a b) (subNoCarryCrt a' b') (RC k) :=
  (subNoCarry_rel ha.trunc hb.trunc).bind fun _ _ h => (sub_rel ha.native.q hb.native.q).bind fun _ _ h2 =>
    Rel.pure ⟨h, h2, fun hk => by simp only [ha.value hk, hb.value hk]⟩

theorem negInt_rel {a a' : OvInt p} (ha : RO' k a a') : Rel k (negInt a) (negInt a') (RO' k) :=
  (mapAM_rel (fun _ _ h1 => neg_rel h1.q) ha.limbs).bind fun _ _ h => Rel.pure ⟨h, ha.bits⟩

theorem scalarMulNoCarry_rel {a a' : OvInt p} (ha : RO' k a a') (cf : ZMod p) (cl : ℕ) :
    Rel k (scalarMulNoCarry a cf cl) (scalarMulNoCarry a' cf cl) (RO' k) :=
  (mapAM_rel (fun _ _ h1 => mul_rel h1.q (RQ.constant_rfl cf)) ha.limbs).bind fun _ _ h => Rel.pure ⟨h, by rw [ha.bits]⟩

theorem i64ToFe_rel (c : ℤ) : Rel k (i64ToFe c : M p _) (i64ToFe c) (fun x y => x = y) :=
  (assertM_rel fun _ => rfl).bind fun _ _ _ => Rel.pure rfl

theorem scalarMulNoCarryCrt_rel {a a' : CrtInt p} (ha : RC k a a') (c : ℤ) :
    Rel k (scalarMulNoCarryCrt a c) (scalarMulNoCarryCrt a' c) (RC k) := by
  refine (i64ToFe_rel c).bind ?_
  rintro ⟨cf, ca⟩ _ rfl
  refine (unwrapS_rel _).bind ?_
  rintro cl _ rfl
  exact (scalarMulNoCarry_rel ha.trunc _ _).bind fun _ _ h => (mul_rel ha.native.q (RQ.constant_rfl cf)).bind fun _ _ h2 =>
    Rel.pure ⟨h, h2, ha.value.map (· * c)⟩

theorem scalarMulAddNoCarry_rel {a a' b b' : OvInt p} (ha : RO' k a a') (hb : RO' k b b') (cf : ZMod p) (cl : ℕ) :
    Rel k (scalarMulAddNoCarry a b cf cl) (scalarMulAddNoCarry a' b' cf cl) (RO' k) :=
  (zipEqM_rel (fun _ _ _ _ h1 h2 => mulAdd_rel h1.q (RQ.constant_rfl cf) h2.q) ha.limbs hb.limbs).bind fun _ _ h =>
    Rel.pure ⟨h, by rw [ha.bits, hb.bits]⟩

theorem scalarMulAddNoCarryCrt_rel {a a' b b' : CrtInt p} (ha : RC k a a') (hb : RC k b b') (c : ℤ) :
    Rel k (scalarMulAddNoCarryCrt a b c) (scalarMulAddNoCarryCrt a' b' c) (RC k) := by
  refine (i64ToFe_rel c).bind ?_
  rintro ⟨cf, ca⟩ _ rfl
  refine (unwrapS_rel _).bind ?_
  rintro cl _ rfl
  exact (scalarMulAddNoCarry_rel ha.trunc hb.trunc _ _).bind fun _ _ h =>
    (mulAdd_rel ha.native.q (RQ.constant_rfl cf) hb.native.q).bind fun _ _ h2 =>
    Rel.pure ⟨h, h2, ha.value.map2 (fun x y => x * c + y) hb.value⟩

theorem RAs.take {l l' : List (AV p)} (h : RAs k l l') (n : ℕ) : RAs k (l.take n) (l'.take n) :=
  List.forall₂_take n h

theorem RAs.rev {l l' : List (AV p)} (h : RAs k l l') : RAs k l.reverse l'.reverse := List.rel_reverse h

theorem mulLoop_rel {a a' b b' : List (AV p)} (ha : RAs k a a') (hb : RAs k b b') (is : List ℕ) :
    Rel k (mulLoop a b is) (mulLoop a' b' is) (RAs k) := by
  induction is with
  | nil => exact Rel.pure .nil
  | cons i is ih =>
    exact (innerProduct_rel (exist_rel (ha.take _)) (exist_rel (hb.take _).rev)).bind fun _ _ h =>
      ih.bind fun _ _ h2 => Rel.pure (.cons h h2)

theorem mulNoCarry_rel {a a' b b' : OvInt p} (ha : RO' k a a') (hb : RO' k b b') (n : ℕ) :
    Rel k (mulNoCarry a b n) (mulNoCarry a' b' n) (RO' k) := by
  unfold mulNoCarry
  rw [ha.limbs.length_eq, hb.limbs.length_eq]
  exact (assertM_rel fun _ => rfl).bind fun _ _ _ => (mulLoop_rel ha.limbs hb.limbs _).bind fun _ _ h =>
    Rel.pure ⟨h, by rw [ha.bits, hb.bits]⟩

theorem mulNoCarryCrt_rel {a a' b b' : CrtInt p} (ha : RC k a a') (hb : RC k b b') (n : ℕ) :
    Rel k (mulNoCarryCrt a b n) (mulNoCarryCrt a' b' n) (RC k) :=
  (mulNoCarry_rel ha.trunc hb.trunc _).bind fun _ _ h => (mul_rel ha.native.q hb.native.q).bind fun _ _ h2 =>
    Rel.pure ⟨h, h2, fun hk => by simp only [ha.value hk, hb.value hk]⟩

theorem selectInt_rel {a a' b b' : OvInt p} (ha : RO' k a a') (hb : RO' k b b') {s s' : AV p} (hs : RA k s s') :
    Rel k (selectInt a b s) (selectInt a' b' s') (RO' k) :=
  (zipEqM_rel (fun _ _ _ _ h1 h2 => select_rel h1.q h2.q hs.q) ha.limbs hb.limbs).bind fun _ _ h =>
    Rel.pure ⟨h, by rw [ha.bits, hb.bits]⟩

theorem selectCrt_rel {a a' b b' : CrtInt p} (ha : RC k a a') (hb : RC k b b') {s s' : AV p} (hs : RA k s s') :
    Rel k (selectCrt a b s) (selectCrt a' b' s') (RC k) :=
  (selectInt_rel ha.trunc hb.trunc hs).bind fun _ _ h => (select_rel ha.native.q hb.native.q hs.q).bind fun _ _ h2 =>
    (unwrapA_rel hs).bind fun _ _ h3 => Rel.pure ⟨h, h2, fun hk => by rw [h3 hk, ha.value hk, hb.value hk]⟩

abbrev ROs (k : Bool) : List (OvInt p) → List (OvInt p) → Prop := List.Forall₂ (RO' k)
abbrev RCs (k : Bool) : List (CrtInt p) → List (CrtInt p) → Prop := List.Forall₂ (RC k)

theorem forall₂_map {α β γ δ : Type} {R : α → β → Prop} {S : γ → δ → Prop} {f : α → γ} {g : β → δ}
    (hf : ∀ a b, R a b → S (f a) (g b)) {l : List α} {l' : List β} (h : List.Forall₂ R l l') :
    List.Forall₂ S (l.map f) (l'.map g) := by
  induction h with
  | nil => exact .nil
  | cons h _ ih => exact .cons (hf _ _ h) ih

theorem limbCol_rel {as as' : List (OvInt p)} (h : ROs k as as') (i : ℕ) {l : Prop} :
    Rel k (limbCol as i) (limbCol as' i) (fun c c' => RQs k c c' ∧ c.length = as.length) l :=
  (column_rel (forall₂_map (fun _ _ h => h.limbs) h) i).weaken fun _ _ h => ⟨h.1, h.2.trans (List.length_map _)⟩

theorem selIndLoop_rel {as as' : List (OvInt p)} (h : ROs k as as') {ind ind' : List (AV p)} (hi : RAs k ind ind')
    {l : Prop} (hl : k = true → l → as.length = ind.length) (is : List ℕ) :
    Rel k (selIndLoop as ind is) (selIndLoop as' ind' is) (RAs k) l := by
  induction is with
  | nil => exact Rel.pure .nil
  | cons i is ih =>
    exact (limbCol_rel h i).bind fun _ _ h1 => (selectByIndicator_rel h1.1 hi fun hk h => h1.2.trans (hl hk h)).bind fun _ _ h2 =>
      ih.bind fun _ _ h3 => Rel.pure (.cons h2 h3)

theorem maxBitsOf_rel {as as' : List (OvInt p)} (h : ROs k as as') : maxBitsOf as = maxBitsOf as' := by
  unfold maxBitsOf
  generalize 0 = z
  induction h generalizing z with
  | nil => rfl
  | cons h _ ih => simp only [List.foldl_cons, h.bits, ih]

theorem selIndInt_rel {as as' : List (OvInt p)} (h : ROs k as as') {ind ind' : List (AV p)} (hi : RAs k ind ind')
    {l : Prop} (hl : k = true → l → as.length = ind.length) :
    Rel k (selIndInt as ind) (selIndInt as' ind') (RO' k) l := by
  have h' := h
  cases h with
  | nil => exact Rel.panic
  | cons h1 h2 =>
    unfold selIndInt
    simp only []
    rw [h1.limbs.length_eq]
    exact (selIndLoop_rel h' hi hl _).bind fun _ _ h3 => Rel.pure ⟨h3, maxBitsOf_rel h'⟩

theorem evalNative_rel {l l' : List (AV p)} (h : RAs k l l') (bs : List (ZMod p)) :
    Rel k (evalNative l bs) (evalNative l' bs) (RA k) := innerProduct_rel (exist_rel h) (consts_rel _)

theorem selIndVal_rel {x x' : ℤ} (hx : RV k x x') {l l' : List (CrtInt p × AV p)}
    (h : List.Forall₂ (fun x y => RC k x.1 y.1 ∧ RA k x.2 y.2) l l') :
    Rel k (selIndVal x l) (selIndVal x' l') (RV k) := by
  induction h generalizing x x' with
  | nil => exact Rel.pure hx
  | cons h _ ih =>
    exact (unwrapA_rel h.2).bind fun _ _ h1 => ih fun hk => by rw [h1 hk, hx hk, h.1.value hk]

theorem selIndNative_rel {as as' : List (CrtInt p)} (h : RCs k as as') {ind ind' ls ls' : List (AV p)}
    (hi : RAs k ind ind') (hl : RAs k ls ls') (he : k = true → as.length = ind.length) (n : ℕ) (bs : List (ZMod p)) :
    Rel k (selIndNative as ind ls n bs) (selIndNative as' ind' ls' n bs) (RA k) := by
  unfold selIndNative
  have e := h.length_eq
  rw [e]
  refine Rel.ite Iff.rfl (fun _ => ?_) (fun _ => selectByIndicator_rel (forall₂_map (fun _ _ h => h.native.q) h) hi
    fun hk _ => (List.length_map _).trans (he hk))
  refine (sliceTo_rel _ _).bind ?_
  rintro b _ rfl
  exact evalNative_rel hl _

theorem selIndCrt_rel {as as' : List (CrtInt p)} (h : RCs k as as') {ind ind' : List (AV p)}
    (hi : RAs k ind ind') (bs : List (ZMod p)) : Rel k (selIndCrt as ind bs) (selIndCrt as' ind' bs) (RC k) := by
  unfold selIndCrt
  have e1 := h.length_eq
  have e2 := hi.length_eq
  rw [e1, e2]
  refine (assertM_rel fun _ => rfl).bind fun _ _ e3 => ?_
  have e4 : as.length = ind.length := by rw [e1, e2]; exact of_decide_eq_true e3.1
  refine (selIndInt_rel (forall₂_map (fun _ _ h => h.trunc) h) hi fun _ _ => (List.length_map _).trans e4).bind fun t t' ht => ?_
  rw [ht.limbs.length_eq]
  exact (selIndNative_rel h hi ht.limbs (fun _ => e4) _ _).bind fun _ _ h1 =>
    (selIndVal_rel (RV.refl _) (zip_rel h hi)).bind fun _ _ h2 => Rel.pure ⟨ht, h1, h2⟩

theorem intoCrt_rel {l l' : List (AV p)} (h : RAs k l l') {v v' : ℕ} (hv : RV k v v') (bs : List (ZMod p)) (n : ℕ) :
    Rel k (intoCrt l v bs n) (intoCrt l' v' bs n) (RC k) :=
  (evalNative_rel h bs).bind fun _ _ h1 => Rel.pure ⟨⟨h, rfl⟩, h1, hv.map _⟩

theorem assignFixed_rel (v n b : ℕ) : Rel k (assignFixed v n b : M p _) (assignFixed v n b) (RC k) := by
  refine (unwrapS_rel _).bind ?_
  rintro ls _ rfl
  refine (loadConstants_rel _).bind fun _ _ h => (unwrapS_rel _).bind ?_
  rintro nv _ rfl
  exact (loadConstant_rel _).bind fun _ _ h2 => Rel.pure ⟨⟨h, rfl⟩, h2, RV.refl _⟩

/-- Lists of the same length whose entries are equal in prover mode. -/
abbrev RVs {α : Type} (k : Bool) : List α → List α → Prop := List.Forall₂ (RV k)

theorem RVs.of {α : Type} {l l' : List α} (h : RV k l l') (hl : l.length = l'.length) : RVs k l l' := by
  cases k with
  | true => rw [h rfl]; exact List.forall₂_same.2 fun _ _ => RV.refl _
  | false =>
    clear h
    induction l generalizing l' with
    | nil => cases l' with
      | nil => exact .nil
      | cons _ _ => simp at hl
    | cons a l ih => cases l' with
      | nil => simp at hl
      | cons b l' => exact .cons (fun hk => nomatch hk) (ih (Nat.succ.inj hl))

theorem carries_rel {b : ℤ} {x x' : ℤ} (hx : RV k x x') {as as' : List (AV p)} (h : RAs k as as') :
    Rel k (carries b x as) (carries b x' as') (RVs k) := by
  induction h generalizing x x' with
  | nil => exact Rel.pure .nil
  | cons h _ ih =>
    refine (unwrapA_rel h).bind fun v v' hv => ?_
    have hc : RV k ((Utils.feToBigint v + x).tdiv b) ((Utils.feToBigint v' + x').tdiv b) :=
      fun hk => by rw [hv hk, hx hk]
    exact (ih hc).bind fun _ _ h1 => Rel.pure (.cons hc h1)

theorem carryLoop_rel (L rb : ℕ) (base shift : ZMod p) {q q' : QCell p} (hq : RQ k q q') {l l' : List (AV p × ℤ)}
    (h : List.Forall₂ (fun x y => RA k x.1 y.1 ∧ RV k x.2 y.2) l l') :
    Rel k (carryLoop L rb base shift q l) (carryLoop L rb base shift q' l') (fun _ _ => True) := by
  induction h generalizing q q' with
  | nil => exact Rel.pure trivial
  | cons h _ ih =>
    refine (unwrapV_rel (h.2.map fun c => Utils.bigintToFe p (-c))).bind fun d d' hd => ?_
    refine (assignRegion_rel (.cons h.1.q (.cons hd.w (.cons (RQ.constant_rfl base) (.cons hq .nil)))) (fun _ => rfl) (by gok)).bind fun _ _ _ => ?_
    exact (getM_rel _).bind fun _ _ h1 => (add_rel h1.q (RQ.constant_rfl _)).bind fun _ _ h2 =>
      (rangeCheck_rel L h2 _).bind fun _ _ _ => ih h1.q

theorem checkCarryToZero_rel (L : ℕ) {a a' : OvInt p} (ha : RO' k a a') (n : ℕ) (base : ZMod p) :
    Rel k (checkCarryToZero L a n base) (checkCarryToZero L a' n base) (fun _ _ => True) := by
  unfold checkCarryToZero
  rw [ha.bits]
  refine (carries_rel (RV.refl _) ha.limbs).bind fun _ _ h1 => (subU_rel _ _).bind fun _ _ _ => (pow2At_rel _).bind ?_
  rintro sh _ rfl
  exact carryLoop_rel L _ _ _ (RQ.constant_rfl _) (zip_rel ha.limbs h1)

abbrev RA3 (k : Bool) (x y : List (AV p) × List (AV p) × List (AV p)) : Prop :=
  RAs k x.1 y.1 ∧ RAs k x.2.1 y.2.1 ∧ RAs k x.2.2 y.2.2

theorem RAs.snoc {l l' : List (AV p)} (h : RAs k l l') {a a' : AV p} (ha : RA k a a') : RAs k (l ++ [a]) (l' ++ [a']) :=
  List.rel_append h (.cons ha .nil)

theorem RQs.snoc {l l' : List (QCell p)} (h : RQs k l l') {a a' : QCell p} (ha : RQ k a a') : RQs k (l ++ [a]) (l' ++ [a']) :=
  List.rel_append h (.cons ha .nil)

theorem carryModLoop_rel (ml : List (ZMod p)) {l l' : List (AV p × ZMod p × ZMod p)}
    (h : List.Forall₂ (fun x y => RA k x.1 y.1 ∧ RV k x.2.1 y.2.1 ∧ RV k x.2.2 y.2.2) l l') {qs qs' : List (AV p)}
    (hq : RAs k qs qs') : Rel k (carryModLoop ml l qs) (carryModLoop ml l' qs') (RA3 k) := by
  induction h generalizing qs qs' with
  | nil => exact Rel.pure ⟨hq, .nil, .nil⟩
  | @cons x y _ _ h _ ih =>
    obtain ⟨a, q, o⟩ := x
    obtain ⟨a', q', o'⟩ := y
    obtain ⟨h1, h2, h3⟩ := h
    unfold carryModLoop
    rw [hq.length_eq]
    refine (sliceTo_rel _ _).bind ?_
    rintro ms _ rfl
    refine (innerProductLeftLast_rel ((exist_rel hq).snoc (a := .witness q) (a' := .witness q') h2) (consts_rel _)).bind ?_
    rintro ⟨pr, qc⟩ ⟨pr', qc'⟩ ⟨e1, e2⟩
    refine (unwrapA_rel e1).bind fun pv pv' hp => (unwrapA_rel h1).bind fun av av' hav => ?_
    have e3 : RV k (pv - av) (pv' - av') := hp.map2 _ hav
    have e4 : RV k (pv - av + o) (pv' - av' + o') := e3.map2 _ h3
    refine (assignRegion_rel (.cons (RQ.constant_rfl _) (.cons h1.q (.cons e3.w (.cons (RQ.constant_rfl _) (.cons h3.w (.cons e4.w .nil)))))) (fun _ => rfl) (by gok)).bind
      fun _ _ _ => lastM_rel.bind fun _ _ h5 => (getM_rel _).bind fun _ _ h6 => (ih (hq.snoc e2)).bind ?_
    rintro ⟨_, _, _⟩ ⟨_, _, _⟩ ⟨e5, e6, e7⟩
    exact Rel.pure ⟨e5, .cons h6 e6, .cons h5 e7⟩

theorem rangeChecksLast_rel (L n last : ℕ) {l l' : List (AV p)} (h : RAs k l l') :
    Rel k (rangeChecksLast L n last l) (rangeChecksLast L n last l') (fun _ _ => True) := by
  induction h with
  | nil => exact Rel.pure trivial
  | cons h h2 ih => cases h2 with
    | nil => exact rangeCheck_rel L h _
    | cons h3 h4 => exact (rangeCheck_rel L h _).bind fun _ _ _ => ih

theorem quotCheck_rel (L b : ℕ) (base : ZMod p) {a a' : AV p} (h : RA k a a') :
    Rel k (quotCheck L b base a) (quotCheck L b base a') (fun _ _ => True) :=
  (add_rel h.q (RQ.constant_rfl _)).bind fun _ _ h2 => rangeCheck_rel L h2 _

theorem quotChecks_rel (L n last : ℕ) (bs : List (ZMod p)) {l l' : List (AV p)} (h : RAs k l l') :
    Rel k (quotChecks L n last bs l) (quotChecks L n last bs l') (fun _ _ => True) := by
  induction h with
  | nil => exact Rel.pure trivial
  | cons h h2 ih => cases h2 with
    | nil =>
      refine (pow2At_rel _).bind ?_
      rintro b _ rfl
      exact quotCheck_rel L _ _ h
    | cons h3 h4 =>
      refine (unwrapS_rel _).bind ?_
      rintro b _ rfl
      exact (quotCheck_rel L _ _ h).bind fun _ _ _ => ih

/-- The list, if any, has length `n`. -/
def OLen (n : ℕ) (o : Option (List ℕ)) : Prop := ∀ l, o = some l → l.length = n

theorem OLen.bind {α : Type} {n : ℕ} {o : Option α} {f : α → Option (List ℕ)} (h : ∀ a, OLen n (f a)) : OLen n (o >>= f) := by
  intro l hl
  obtain ⟨a, -, h2⟩ := Option.bind_eq_some_iff.1 hl
  exact h a l h2

theorem OLen.cons {n : ℕ} {o : Option (List ℕ)} {x : ℕ} (h : OLen n o) : OLen (n + 1) (o >>= fun r => pure (x :: r)) := by
  intro l hl
  obtain ⟨a, h1, h2⟩ := Option.bind_eq_some_iff.1 hl
  rw [← Option.some.inj h2, List.length_cons, h a h1]

theorem OLen.ite {c : Prop} [Decidable c] {n : ℕ} {o o' : Option (List ℕ)} (h : OLen n o) (h' : OLen n o') :
    OLen n (if c then o else o') := by split <;> assumption

theorem bigLoop_length (chk : Bool) (b : ℕ) : ∀ (n : ℕ) (e : List ℕ) (d r : ℕ), OLen n (Utils.bigLoop chk b n e d r)
  | 0, _, _, _ => by intro l h; simp [Utils.bigLoop] at h; simp [h]
  | n + 1, e, d, r => by
    unfold Utils.bigLoop
    repeat first
      | exact OLen.cons (bigLoop_length chk b _ _ _ _)
      | refine OLen.ite ?_ ?_
      | refine OLen.bind fun _ => ?_

theorem decomposeBigLimbs_length {chk : Bool} {e m b : ℕ} {l : List ℕ} (h : Utils.decomposeBigLimbs chk e m b = some l) :
    l.length = m - 1 + 1 := by
  revert l
  show OLen _ _
  unfold Utils.decomposeBigLimbs
  repeat first
    | exact OLen.cons (bigLoop_length chk b _ _ _ _)
    | refine OLen.ite ?_ ?_
    | refine OLen.bind fun _ => ?_

theorem decomposeBiguint_length {chk : Bool} {e m b : ℕ} {l : List (ZMod p)} (h : Utils.decomposeBiguint p chk e m b = some l) :
    l.length = m - 1 + 1 := by
  obtain ⟨l', h1, rfl⟩ := Option.map_eq_some_iff.1 h
  rw [List.length_map, decomposeBigLimbs_length h1]

theorem decomposeBigint_len {chk : Bool} {e : ℤ} {m b : ℕ} {l : List (ZMod p)} (h : Utils.decomposeBigint p chk e m b = some l) :
    l.length = m - 1 + 1 := by
  unfold Utils.decomposeBigint at h
  split at h
  · obtain ⟨l', h1, rfl⟩ := Option.map_eq_some_iff.1 h
    rw [List.length_map, decomposeBiguint_length h1]
  · exact decomposeBiguint_length h

theorem decomposeBigint_rel {e e' : ℤ} (he : RV k e e') (m b : ℕ) :
    Rel k (unwrap (Utils.decomposeBigint p false e m b) : M p _) (unwrap (Utils.decomposeBigint p false e' m b)) (RVs k) := by
  refine unwrap_rel (fun hk a ha => ⟨a, by rw [← he hk, ha]⟩) fun l l' h1 h2 => RVs.of (fun hk => ?_) ?_
  · rw [he hk, h2] at h1; exact (Option.some.inj h1).symm
  · rw [decomposeBigint_len h1, decomposeBigint_len h2]

theorem decomposeBiguint_rel {e e' : ℕ} (he : RV k e e') (m b : ℕ) :
    Rel k (unwrap (Utils.decomposeBiguint p false e m b) : M p _) (unwrap (Utils.decomposeBiguint p false e' m b)) (RVs k) := by
  refine unwrap_rel (fun hk a ha => ⟨a, by rw [← he hk, ha]⟩) fun l l' h1 h2 => RVs.of (fun hk => ?_) ?_
  · rw [he hk, h2] at h1; exact (Option.some.inj h1).symm
  · rw [decomposeBiguint_length h1, decomposeBiguint_length h2]

theorem RO'.of {l l' : List (AV p)} (h : RAs k l l') (m : ℕ) : RO' k ⟨l, m⟩ ⟨l', m⟩ := ⟨h, rfl⟩

theorem carryModCrt_rel (c : FpChip p) {a a' : CrtInt p} (ha : RC k a a') :
    Rel k (carryModCrt c a) (carryModCrt c a') (RC k) := by
  unfold carryModCrt
  simp only []
  rw [ha.trunc.limbs.length_eq, ha.trunc.bits]
  refine (assertM_rel fun _ => rfl).bind fun _ _ _ => (subU_rel _ _).bind fun _ _ _ => (subU_rel _ _).bind fun _ _ _ =>
    (assertM_rel fun _ => rfl).bind fun _ _ _ => ?_
  have hout : RV k (a.value % (c.modulus : ℤ)) (a'.value % (c.modulus : ℤ)) := ha.value.map (· % (c.modulus : ℤ))
  have hquot : RV k (a.value / (c.modulus : ℤ)) (a'.value / (c.modulus : ℤ)) := ha.value.map (· / (c.modulus : ℤ))
  refine (decomposeBigint_rel hout _ _).bind fun ov ov' ho => (decomposeBigint_rel hquot _ _).bind fun qv qv' hq =>
    (assertM_rel fun _ => rfl).bind fun _ _ _ => (carryModLoop_rel _ (zip_rel ha.trunc.limbs (zip_rel hq ho)) .nil).bind ?_
  rintro ⟨qs, os, cs⟩ ⟨qs', os', cs'⟩ ⟨h1, h2, h3⟩
  refine (rangeChecksLast_rel _ _ _ h2).bind fun _ _ _ => (quotChecks_rel _ _ _ _ h1).bind fun _ _ _ => (base1_rel c).bind ?_
  rintro b1 _ rfl
  refine (checkCarryToZero_rel _ (RO'.of h3 _) _ _).bind fun _ _ _ => (evalNative_rel h1 _).bind fun _ _ e1 =>
    (evalNative_rel h2 _).bind fun _ _ e2 => ?_
  exact (assignRegion_rel (.cons (RQ.constant_rfl _) (.cons e1.q (.cons ha.native.q .nil))) (fun _ => rfl) (by gok)).bind fun _ _ _ =>
    Rel.pure ⟨⟨h2, rfl⟩, e2, hout⟩

theorem carryZeroLoop_rel (ml : List (ZMod p)) {l l' : List (AV p × ZMod p)}
    (h : List.Forall₂ (fun x y => RA k x.1 y.1 ∧ RV k x.2 y.2) l l') {qs qs' : List (AV p)}
    (hq : RAs k qs qs') : Rel k (carryZeroLoop ml l qs) (carryZeroLoop ml l' qs')
      (fun x y => RAs k x.1 y.1 ∧ RAs k x.2 y.2) := by
  induction h generalizing qs qs' with
  | nil => exact Rel.pure ⟨hq, .nil⟩
  | @cons x y _ _ h _ ih =>
    obtain ⟨a, q⟩ := x
    obtain ⟨a', q'⟩ := y
    obtain ⟨h1, h2⟩ := h
    unfold carryZeroLoop
    rw [hq.length_eq]
    refine (sliceTo_rel _ _).bind ?_
    rintro ms _ rfl
    refine (innerProductLeftLast_rel ((exist_rel hq).snoc (a := .witness q) (a' := .witness q') h2) (consts_rel _)).bind ?_
    rintro ⟨pr, qc⟩ ⟨pr', qc'⟩ ⟨e1, e2⟩
    refine (unwrapA_rel e1).bind fun pv pv' hp => (unwrapA_rel h1).bind fun av av' hav => ?_
    have e3 : RV k (pv - av) (pv' - av') := hp.map2 _ hav
    refine (assignRegionLast_rel (.cons (RQ.constant_rfl _) (.cons h1.q (.cons e3.w .nil))) (fun _ => rfl) (by gok)).bind
      fun _ _ h5 => (ih (hq.snoc e2)).bind ?_
    rintro ⟨_, _⟩ ⟨_, _⟩ ⟨e5, e6⟩
    exact Rel.pure ⟨e5, .cons h5 e6⟩

theorem checkCarryModToZeroCrt_rel (c : FpChip p) {a a' : CrtInt p} (ha : RC k a a') :
    Rel k (checkCarryModToZeroCrt c a) (checkCarryModToZeroCrt c a') (fun _ _ => True) := by
  unfold checkCarryModToZeroCrt
  simp only []
  rw [ha.trunc.limbs.length_eq, ha.trunc.bits]
  refine (assertM_rel fun _ => rfl).bind fun _ _ _ => (assertM_rel fun _ => rfl).bind fun _ _ _ =>
    (subU_rel _ _).bind fun _ _ _ => (assertM_rel fun _ => rfl).bind fun _ _ _ => ?_
  refine (decomposeBigint_rel (ha.value.map (· / (c.modulus : ℤ))) _ _).bind fun qv qv' hq =>
    (carryZeroLoop_rel _ (zip_rel ha.trunc.limbs hq) .nil).bind ?_
  rintro ⟨qs, cs⟩ ⟨qs', cs'⟩ ⟨h1, h3⟩
  refine (quotChecks_rel _ _ _ _ h1).bind fun _ _ _ => (base1_rel c).bind ?_
  rintro b1 _ rfl
  refine (checkCarryToZero_rel _ (RO'.of h3 _) _ _).bind fun _ _ _ => (evalNative_rel h1 _).bind fun _ _ e1 => ?_
  exact assignRegion_rel (.cons (RQ.constant_rfl _) (.cons (RQ.constant_rfl _) (.cons e1.q (.cons ha.native.q .nil)))) (fun _ => rfl) (by gok)

theorem subLt_rel (L n : ℕ) {a a' b b' : AV p} (ha : RA k a a') (hb : RA k b b') {o o' : Option (AV p)} (ho : RO k o o') :
    Rel k (subLt L n a b o) (subLt L n a' b' o') (RA2 k) := by
  cases ho with
  | none => exact (isLessThan_rel L ha.q hb.q n).bind fun _ _ h => Rel.pure ⟨hb, h⟩
  | some h =>
    exact (add_rel hb.q h.q).bind fun _ _ h1 => (isLessThan_rel L ha.q h1.q _).bind fun _ _ h2 => Rel.pure ⟨h1, h2⟩

theorem subStep_rel (L n : ℕ) (base : ZMod p) {a a' b b' : AV p} (ha : RA k a a') (hb : RA k b b') {o o' : Option (AV p)}
    (ho : RO k o o') : Rel k (subStep L n base a b o) (subStep L n base a' b' o') (RA2 k) := by
  refine (subLt_rel L n ha hb ho).bind ?_
  rintro ⟨bo, lt⟩ ⟨bo', lt'⟩ ⟨h1, h2⟩
  refine (unwrapA_rel h2).bind fun _ _ e1 => (unwrapA_rel ha).bind fun _ _ e2 => (unwrapA_rel h1).bind fun _ _ e3 => ?_
  have e4 := e1.map2 (fun x y => base * x + y) e2
  have e5 := e4.map2 (fun x y => x - y) e3
  exact (assignRegionLast_rel (.cons ha.q (.cons h2.q (.cons (RQ.constant_rfl _) (.cons e4.w (.cons (RQ.constant_rfl _)
    (.cons h1.q (.cons e5.w .nil))))))) (fun _ => rfl) (by gok)).bind fun _ _ h => Rel.pure ⟨h, h2⟩

theorem subLoop_rel (L n : ℕ) (base : ZMod p) {as as' bs bs' : List (AV p)} (ha : RAs k as as') (hb : RAs k bs bs')
    {o o' : Option (AV p)} (ho : RO k o o') :
    Rel k (subLoop L n base as bs o) (subLoop L n base as' bs' o') (fun x y => RAs k x.1 y.1 ∧ RO k x.2 y.2) := by
  induction ha generalizing bs bs' o o' with
  | nil => cases hb with
    | nil => exact Rel.pure ⟨.nil, ho⟩
    | cons _ _ => exact Rel.panic
  | cons h _ ih => cases hb with
    | nil => exact Rel.panic
    | cons h2 h3 =>
      refine (subStep_rel L n base h h2 ho).bind ?_
      rintro ⟨_, _⟩ ⟨_, _⟩ ⟨e1, e2⟩
      refine (ih h3 (.some e2)).bind ?_
      rintro ⟨_, _⟩ ⟨_, _⟩ ⟨e3, e4⟩
      exact Rel.pure ⟨.cons e1 e3, e4⟩

theorem subInt_rel (L n : ℕ) (base : ZMod p) {as as' bs bs' : List (AV p)} (ha : RAs k as as') (hb : RAs k bs bs') :
    Rel k (subInt L n base as bs) (subInt L n base as' bs') (fun x y => RO' k x.1 y.1 ∧ RA k x.2 y.2) := by
  refine (subLoop_rel L n base ha hb .none).bind ?_
  rintro ⟨_, _⟩ ⟨_, _⟩ ⟨e1, e2⟩
  exact (unwrapO_rel e2).bind fun _ _ h => Rel.pure ⟨⟨e1, rfl⟩, h⟩

theorem subCrt_rel (L n : ℕ) (base : ZMod p) {a a' b b' : CrtInt p} (ha : RC k a a') (hb : RC k b b') :
    Rel k (subCrt L n base a b) (subCrt L n base a' b') (fun x y => RC k x.1 y.1 ∧ RA k x.2 y.2) := by
  refine (sub_rel ha.native.q hb.native.q).bind fun _ _ h => (subInt_rel L n base ha.trunc.limbs hb.trunc.limbs).bind ?_
  rintro ⟨_, _⟩ ⟨_, _⟩ ⟨e1, e2⟩
  exact Rel.pure ⟨⟨e1, h, fun hk => by simp only [ha.value hk, hb.value hk]⟩, e2⟩

theorem bigLessThan_rel (L n : ℕ) (base : ZMod p) {as as' bs bs' : List (AV p)} (ha : RAs k as as') (hb : RAs k bs bs') :
    Rel k (bigLessThan L n base as bs) (bigLessThan L n base as' bs') (RA k) := by
  refine (subInt_rel L n base ha hb).bind ?_
  rintro ⟨_, _⟩ ⟨_, _⟩ ⟨e1, e2⟩
  exact Rel.pure e2

theorem bigIsZeroPositive_rel {a a' : OvInt p} (ha : RO' k a a') :
    Rel k (bigIsZeroPositive a) (bigIsZeroPositive a') (RA k) := by
  unfold bigIsZeroPositive
  rw [ha.limbs.length_eq, ha.bits]
  exact (assertM_rel fun _ => rfl).bind fun _ _ _ => (assertM_rel fun _ => rfl).bind fun _ _ _ =>
    (sum_rel (exist_rel ha.limbs)).bind fun _ _ h => isZero_rel h

theorem bigIsZeroLoop_rel {q q' : AV p} (hq : RA k q q') {l l' : List (AV p)} (h : RAs k l l') :
    Rel k (bigIsZeroLoop q l) (bigIsZeroLoop q' l') (RA k) := by
  induction h generalizing q q' with
  | nil => exact Rel.pure hq
  | cons h _ ih => exact (isZero_rel h).bind fun _ _ h1 => (and_rel h1.q hq.q).bind fun _ _ h2 => ih h2

theorem bigIsZero_rel {l l' : List (AV p)} (h : RAs k l l') : Rel k (bigIsZero l) (bigIsZero l') (RA k) := by
  cases h with
  | nil => exact Rel.panic
  | cons h h2 => exact (isZero_rel h).bind fun _ _ h1 => bigIsZeroLoop_rel h1 h2

theorem bigIsEqualLoop_rel {q q' : AV p} (hq : RA k q q') {as as' bs bs' : List (AV p)} (ha : RAs k as as') (hb : RAs k bs bs') :
    Rel k (bigIsEqualLoop q as bs) (bigIsEqualLoop q' as' bs') (RA k) := by
  induction ha generalizing q q' bs bs' with
  | nil => cases hb with
    | nil => exact Rel.pure hq
    | cons _ _ => exact Rel.panic
  | cons h _ ih => cases hb with
    | nil => exact Rel.panic
    | cons h2 h3 => exact (isEqual_rel h.q h2.q).bind fun _ _ h1 => (and_rel h1.q hq.q).bind fun _ _ h2 => ih h2 h3

theorem bigIsEqual_rel {as as' bs bs' : List (AV p)} (ha : RAs k as as') (hb : RAs k bs bs') :
    Rel k (bigIsEqual as bs) (bigIsEqual as' bs') (RA k) := by
  cases ha with
  | nil => exact Rel.panic
  | cons h h' => cases hb with
    | nil => exact Rel.panic
    | cons h2 h3 => exact (isEqual_rel h.q h2.q).bind fun _ _ h1 => bigIsEqualLoop_rel h1 h' h3

theorem bigIsEvenPositive_rel (L n : ℕ) {a a' : OvInt p} (ha : RO' k a a') :
    Rel k (bigIsEvenPositive L n a) (bigIsEvenPositive L n a') (RA k) := by
  obtain ⟨l, m⟩ := a
  obtain ⟨l', m'⟩ := a'
  obtain ⟨h, e⟩ := ha
  unfold bigIsEvenPositive
  dsimp only at h ⊢
  cases h with
  | nil => exact Rel.panic
  | cons h _ => exact (getLastBit_rel L h n).bind fun _ _ h1 => not_rel h1.q

end H2
