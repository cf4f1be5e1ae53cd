import Verif.Fields.CompleteLaws
import Verif.Fields.LawsExt2

/-!
# The extension chips are complete

`vecCmp`: if the chip of the base field is complete, so is the chip of an extension given by a basis, when its multiplication is.
-/

set_option autoImplicit false
set_option linter.unusedSectionVars false
namespace H2
variable {p : ℕ} [Fact p.Prime] {tbl : ZMod p → Prop} {ext : Cell → ZMod p} {s : Ctx p}

/-! ### Loops -/

theorem mapList_cmp {α β A B : Type} {f : α → M p β} {S : Ctx p → α → A → Prop} {T : Ctx p → β → B → Prop} {g : A → B}
    (hS : ∀ s s' a x, S s a x → Ext s s' → S s' a x) (hT : ∀ s s' a x, T s a x → Ext s s' → T s' a x)
    (hf : ∀ s a x, S s a x → Cmp tbl ext s (f a) (fun r s' => T s' r (g x))) :
    ∀ {s : Ctx p} {as : List α} {xs : List A}, List.Forall₂ (S s) as xs →
    Cmp tbl ext s (mapList f as) (fun rs s' => List.Forall₂ (T s') rs (xs.map g))
  | _, [], [], _ => Cmp.pure .nil
  | _, a :: as, x :: xs, h => by
    rw [List.forall₂_cons] at h
    refine Cmp.bind (hf _ _ _ h.1) fun r s1 e1 hr => ?_
    exact Cmp.bind (mapList_cmp hS hT hf (h.2.imp fun _ _ h => hS _ _ _ _ h e1)) fun rs s2 e2 hrs =>
      Cmp.pure (.cons (hT _ _ _ _ hr e2) hrs)
  | _, [], _ :: _, h => by cases h
  | _, _ :: _, [], h => by cases h

theorem zipEqList_cmp {α β γ A B C : Type} {f : α → β → M p γ} {S : Ctx p → α → A → Prop} {T : Ctx p → β → B → Prop}
    {W : Ctx p → γ → C → Prop} {g : A → B → C} (hS : ∀ s s' a x, S s a x → Ext s s' → S s' a x)
    (hT : ∀ s s' a x, T s a x → Ext s s' → T s' a x) (hW : ∀ s s' a x, W s a x → Ext s s' → W s' a x)
    (hf : ∀ s a b x y, S s a x → T s b y → Cmp tbl ext s (f a b) (fun r s' => W s' r (g x y))) :
    ∀ {s : Ctx p} {as : List α} {bs : List β} {xs : List A} {ys : List B}, List.Forall₂ (S s) as xs → List.Forall₂ (T s) bs ys →
    xs.length = ys.length →
    Cmp tbl ext s (zipEqList f as bs) (fun rs s' => List.Forall₂ (W s') rs (List.zipWith g xs ys))
  | _, [], [], [], [], _, _, _ => Cmp.pure .nil
  | _, a :: as, b :: bs, x :: xs, y :: ys, h1, h2, hl => by
    rw [List.forall₂_cons] at h1 h2
    refine Cmp.bind (hf _ _ _ _ _ h1.1 h2.1) fun r s1 e1 hr => ?_
    exact Cmp.bind (zipEqList_cmp hS hT hW hf (h1.2.imp fun _ _ h => hS _ _ _ _ h e1) (h2.2.imp fun _ _ h => hT _ _ _ _ h e1) (by simpa using hl))
      fun rs s2 e2 hrs => Cmp.pure (.cons (hW _ _ _ _ hr e2) hrs)
  | _, [], _, _ :: _, _, h, _, _ => by cases h
  | _, _ :: _, _, [], _, h, _, _ => by cases h
  | _, _, [], _, _ :: _, _, h, _ => by cases h
  | _, _, _ :: _, _, [], _, h, _ => by cases h
  | _, _, _, [], _ :: _, _, _, h => by simp at h
  | _, _, _, _ :: _, [], _, _, h => by simp at h

theorem forList_cmp {α : Type} {f : α → M p Unit} {S : Ctx p → α → Prop} (hS : ∀ s s' a, S s a → Ext s s' → S s' a)
    (hf : ∀ s a, S s a → Cmp tbl ext s (f a) (fun _ _ => True)) : ∀ {s : Ctx p} {as : List α}, (∀ a ∈ as, S s a) →
    Cmp tbl ext s (forList f as) (fun _ _ => True)
  | _, [], _ => Cmp.pure trivial
  | _, a :: as, h => Cmp.bind (hf _ _ (h a (by simp))) fun _ s1 e1 _ => forList_cmp hS hf fun b hb => hS _ _ _ (h b (List.mem_cons_of_mem _ hb)) e1

theorem forZip_cmp {α β A : Type} {f : α → β → M p Unit} {S : Ctx p → α → A → Prop} {T : Ctx p → β → A → Prop}
    (hS : ∀ s s' a x, S s a x → Ext s s' → S s' a x) (hT : ∀ s s' a x, T s a x → Ext s s' → T s' a x)
    (hf : ∀ s a b x, S s a x → T s b x → Cmp tbl ext s (f a b) (fun _ _ => True)) :
    ∀ {s : Ctx p} {as : List α} {bs : List β} {xs : List A}, List.Forall₂ (S s) as xs → List.Forall₂ (T s) bs xs →
    Cmp tbl ext s (forZip f as bs) (fun _ _ => True)
  | _, [], [], [], _, _ => Cmp.pure trivial
  | _, a :: as, b :: bs, x :: xs, h1, h2 => by
    rw [List.forall₂_cons] at h1 h2
    exact Cmp.bind (hf _ _ _ _ h1.1 h2.1) fun r s1 e1 _ =>
      forZip_cmp hS hT hf (h1.2.imp fun _ _ h => hS _ _ _ _ h e1) (h2.2.imp fun _ _ h => hT _ _ _ _ h e1)
  | _, [], _, _ :: _, h, _ => by cases h
  | _, _ :: _, _, [], h, _ => by cases h
  | _, _, [], _ :: _, _, h => by cases h
  | _, _, _ :: _, [], _, h => by cases h

theorem foldGate_and_cmp {α A : Type} {f : α → M p (AV p)} {S : Ctx p → α → A → Prop} {P : A → Prop} [DecidablePred P]
    (hS : ∀ s s' a x, S s a x → Ext s s' → S s' a x)
    (hf : ∀ s a x, S s a x → Cmp tbl ext s (f a) (fun r s' => Con ext s' r (bit (P x)))) :
    ∀ {s : Ctx p} {as : List α} {xs : List A} {prev : AV p} {b : Prop} [Decidable b], List.Forall₂ (S s) as xs →
    Con ext s prev (bit b) → Cmp tbl ext s (foldGate f and prev as) (fun r s' => Con ext s' r (bit (b ∧ ∀ x ∈ xs, P x)))
  | _, [], [], prev, b, _, _, hp => Cmp.pure (by simpa using hp)
  | _, a :: as, x :: xs, prev, b, _, h, hp => by
    rw [List.forall₂_cons] at h
    refine Cmp.bind (hf _ _ _ h.1) fun c s1 e1 hc => ?_
    refine Cmp.bind (and_cmp (show QCon ext s1 (.existing c) _ from hc) (show QCon ext s1 (.existing prev) _ from hp.mono e1))
      fun q s2 e2 hq => ?_
    have : bit (P x) * bit b = (bit (b ∧ P x) : ZMod p) := by
      unfold bit
      by_cases h1 : P x <;> by_cases h2 : b <;> simp [h1, h2]
    rw [this] at hq
    refine (foldGate_and_cmp hS hf (h.2.imp fun _ _ h => hS _ _ _ _ h (e1.trans e2)) hq).weaken fun r s' hr => ?_
    simpa [and_assoc] using hr
  | _, [], _ :: _, _, _, _, h, _ => by cases h
  | _, _ :: _, [], _, _, _, h, _ => by cases h

theorem foldGate1_and_cmp {α A : Type} {f : α → M p (AV p)} {S : Ctx p → α → A → Prop} {P : A → Prop} [DecidablePred P]
    (hS : ∀ s s' a x, S s a x → Ext s s' → S s' a x)
    (hf : ∀ s a x, S s a x → Cmp tbl ext s (f a) (fun r s' => Con ext s' r (bit (P x)))) {as : List α} {xs : List A}
    (h : List.Forall₂ (S s) as xs) (hne : xs ≠ []) :
    Cmp tbl ext s (foldGate1 f and as) (fun r s' => Con ext s' r (bit (∀ x ∈ xs, P x))) := by
  cases h with
  | nil => exact absurd rfl hne
  | cons h1 h2 =>
    refine Cmp.bind (hf _ _ _ h1) fun c s1 e1 hc => ?_
    refine (foldGate_and_cmp hS hf (h2.imp fun _ _ h => hS _ _ _ _ h e1) hc).weaken fun r s' hr => ?_
    simpa using hr

theorem foldGate_or_cmp {α A : Type} {f : α → M p (AV p)} {S : Ctx p → α → A → Prop} {P : A → Prop} [DecidablePred P]
    (hS : ∀ s s' a x, S s a x → Ext s s' → S s' a x)
    (hf : ∀ s a x, S s a x → Cmp tbl ext s (f a) (fun r s' => Con ext s' r (bit (P x)))) :
    ∀ {s : Ctx p} {as : List α} {xs : List A} {prev : AV p} {b : Prop} [Decidable b], List.Forall₂ (S s) as xs →
    Con ext s prev (bit b) → Cmp tbl ext s (foldGate f or prev as) (fun r s' => Con ext s' r (bit (b ∨ ∃ x ∈ xs, P x)))
  | _, [], [], prev, b, _, _, hp => Cmp.pure (by simpa using hp)
  | _, a :: as, x :: xs, prev, b, _, h, hp => by
    rw [List.forall₂_cons] at h
    refine Cmp.bind (hf _ _ _ h.1) fun c s1 e1 hc => ?_
    refine Cmp.bind (or_cmp (show QCon ext s1 (.existing c) _ from hc) (show QCon ext s1 (.existing prev) _ from hp.mono e1))
      fun q s2 e2 hq => ?_
    have : bit (P x) + bit b - bit (P x) * bit b = (bit (b ∨ P x) : ZMod p) := by
      unfold bit
      by_cases h1 : P x <;> by_cases h2 : b <;> simp [h1, h2]
    rw [this] at hq
    refine (foldGate_or_cmp hS hf (h.2.imp fun _ _ h => hS _ _ _ _ h (e1.trans e2)) hq).weaken fun r s' hr => ?_
    simpa [or_assoc] using hr
  | _, [], _ :: _, _, _, _, h, _ => by cases h
  | _, _ :: _, [], _, _, _, h, _ => by cases h

theorem foldGate1_or_cmp {α A : Type} {f : α → M p (AV p)} {S : Ctx p → α → A → Prop} {P : A → Prop} [DecidablePred P]
    (hS : ∀ s s' a x, S s a x → Ext s s' → S s' a x)
    (hf : ∀ s a x, S s a x → Cmp tbl ext s (f a) (fun r s' => Con ext s' r (bit (P x)))) {as : List α} {xs : List A}
    (h : List.Forall₂ (S s) as xs) (hne : xs ≠ []) :
    Cmp tbl ext s (foldGate1 f or as) (fun r s' => Con ext s' r (bit (∃ x ∈ xs, P x))) := by
  cases h with
  | nil => exact absurd rfl hne
  | cons h1 h2 =>
    refine Cmp.bind (hf _ _ _ h1) fun c s1 e1 hc => ?_
    refine (foldGate_or_cmp hS hf (h2.imp fun _ _ h => hS _ _ _ _ h e1) hc).weaken fun r s' hr => ?_
    simpa using hr

theorem foldEq_cmp {α A : Type} [DecidableEq A] {f : α → α → M p (AV p)} {S : Ctx p → α → A → Prop}
    (hS : ∀ s s' a x, S s a x → Ext s s' → S s' a x)
    (hf : ∀ s a b x y, S s a x → S s b y → Cmp tbl ext s (f a b) (fun r s' => Con ext s' r (bit (x = y)))) :
    ∀ {s : Ctx p} {as bs : List α} {xs ys : List A} {prev : AV p} {b : Prop} [Decidable b], List.Forall₂ (S s) as xs →
    List.Forall₂ (S s) bs ys → xs.length = ys.length → Con ext s prev (bit b) →
    Cmp tbl ext s (foldEq f prev as bs) (fun r s' => Con ext s' r (bit (b ∧ xs = ys)))
  | _, [], [], [], [], prev, b, _, _, _, _, hp => Cmp.pure (by simpa using hp)
  | _, a :: as, b' :: bs, x :: xs, y :: ys, prev, b, _, h, h', hl, hp => by
    rw [List.forall₂_cons] at h h'
    refine Cmp.bind (hf _ _ _ _ _ h.1 h'.1) fun c s1 e1 hc => ?_
    refine Cmp.bind (and_cmp (show QCon ext s1 (.existing c) _ from hc) (show QCon ext s1 (.existing prev) _ from hp.mono e1))
      fun q s2 e2 hq => ?_
    have : bit (x = y) * bit b = (bit (b ∧ x = y) : ZMod p) := by
      unfold bit
      by_cases h1 : x = y <;> by_cases h2 : b <;> simp [h1, h2]
    rw [this] at hq
    refine (foldEq_cmp hS hf (h.2.imp fun _ _ h => hS _ _ _ _ h (e1.trans e2)) (h'.2.imp fun _ _ h => hS _ _ _ _ h (e1.trans e2))
      (by simpa using hl) hq).weaken fun r s' hr => ?_
    simpa [and_assoc] using hr
  | _, [], _, _ :: _, _, _, _, _, h, _, _, _ => by cases h
  | _, _ :: _, _, [], _, _, _, _, h, _, _, _ => by cases h
  | _, _, [], _, _ :: _, _, _, _, _, h, _, _ => by cases h
  | _, _, _ :: _, _, [], _, _, _, _, h, _, _ => by cases h
  | _, _, _, [], _ :: _, _, _, _, _, _, h, _ => by simp at h
  | _, _, _, _ :: _, [], _, _, _, _, _, h, _ => by simp at h

theorem foldEq1_cmp {α A : Type} [DecidableEq A] {f : α → α → M p (AV p)} {S : Ctx p → α → A → Prop}
    (hS : ∀ s s' a x, S s a x → Ext s s' → S s' a x)
    (hf : ∀ s a b x y, S s a x → S s b y → Cmp tbl ext s (f a b) (fun r s' => Con ext s' r (bit (x = y)))) {as bs : List α}
    {xs ys : List A} (h : List.Forall₂ (S s) as xs) (h' : List.Forall₂ (S s) bs ys) (hl : xs.length = ys.length) (hne : xs ≠ []) :
    Cmp tbl ext s (foldEq1 f as bs) (fun r s' => Con ext s' r (bit (xs = ys))) := by
  cases h with
  | nil => exact absurd rfl hne
  | cons h1 h2 =>
    cases h' with
    | nil => simp at hl
    | cons k1 k2 =>
      refine Cmp.bind (hf _ _ _ _ _ h1 k1) fun c s1 e1 hc => ?_
      refine (foldEq_cmp hS hf (h2.imp fun _ _ h => hS _ _ _ _ h e1) (k2.imp fun _ _ h => hS _ _ _ _ h e1) (by simpa using hl) hc).weaken
        fun r s' hr => ?_
      simpa using hr

theorem zipWith_fst {A : Type} : ∀ xs ys : List A, xs.length = ys.length → List.zipWith (fun x _ => x) xs ys = xs
  | [], [], _ => rfl
  | x :: xs, y :: ys, h => by rw [List.zipWith_cons_cons, zipWith_fst xs ys (by simpa using h)]
  | [], _ :: _, h => by simp at h
  | _ :: _, [], h => by simp at h

theorem zipWith_snd {A : Type} : ∀ xs ys : List A, xs.length = ys.length → List.zipWith (fun _ y => y) xs ys = ys
  | [], [], _ => rfl
  | x :: xs, y :: ys, h => by rw [List.zipWith_cons_cons, zipWith_snd xs ys (by simpa using h)]
  | [], _ :: _, h => by simp at h
  | _ :: _, [], h => by simp at h

/-! ### The extension -/

section
variable {K : Type} [Field K] [DecidableEq K] {K2 : Type} [Field K2] [DecidableEq K2] [Algebra K K2]
variable {F : FieldOps p} {l : FieldLaws F K tbl} (k : FieldCmp l) (B : ExtBasis K K2)

/-- In the honest assignment, the unreduced point holds the element of the pair, with the size of the pair. -/
def FieldCmp.D (ext : Cell → ZMod p) (s : Ctx p) (a : F.U) (q : K × l.Sz) : Prop := k.UW ext s a q.1 q.2

theorem FieldCmp.D.mono {k : FieldCmp l} {s s' : Ctx p} {a : F.U} {q : K × l.Sz} (h : k.D ext s a q) (e : Ext s s') : k.D ext s' a q :=
  k.u_mono h e

/-- In the honest assignment, a vector of unreduced points holds the combination of the elements. -/
def vecUW (e : List K2) (ext : Cell → ZMod p) (s : Ctx p) (as : List F.U) (X : K2) (ss : List l.Sz) : Prop :=
  ∃ qs : List (K × l.Sz), qs.length = e.length ∧ List.Forall₂ (k.D ext s) as qs ∧ X = lin e (qs.map Prod.fst) ∧ ss = qs.map Prod.snd

variable {k}

theorem forallD_mono {s s' : Ctx p} {as : List F.U} {qs : List (K × l.Sz)} (h : List.Forall₂ (k.D ext s) as qs) (e : Ext s s') :
    List.Forall₂ (k.D ext s') as qs := h.imp fun _ _ h => h.mono e

theorem vecUW.mono {e : List K2} {s s' : Ctx p} {as : List F.U} {X : K2} {ss : List l.Sz} (h : vecUW k e ext s as X ss)
    (hs : Ext s s') : vecUW k e ext s' as X ss := by
  obtain ⟨qs, h1, h2, h3⟩ := h
  exact ⟨qs, h1, forallD_mono h2 hs, h3⟩

theorem vecPW_mono {e : List K2} {s s' : Ctx p} {as : List F.P} {X : K2} (h : vecRep e (k.PW ext s) as X)
    (hs : Ext s s') : vecRep e (k.PW ext s') as X := h.imp fun _ _ h => k.p_mono h hs

variable (k)

/-- The law of `mul_no_carry` for an extension. -/
def ExtMulC (mulNC : List F.U → List F.U → M p (List F.U)) (mulSz : List l.Sz → List l.Sz → List l.Sz) : Prop :=
  ∀ {ext s a b X Y sx sy}, vecUW k B.e ext s a X sx → vecUW k B.e ext s b Y sy →
    Cmp tbl ext s (mulNC a b) (fun r s' => vecUW k B.e ext s' r (X * Y) (mulSz sx sy))

variable {k B}

theorem vecUW.zip {e : List K2} {as bs : List F.U} {X Y : K2} {sx sy : List l.Sz} {m : F.U → F.U → M p F.U} {f : K → K → K}
    {h : l.Sz → l.Sz → l.Sz} {g : K2 → K2 → K2} (h0 : g 0 0 = 0)
    (hg : ∀ (x y : K) (b u v : K2), algebraMap K K2 (f x y) * b + g u v = g (algebraMap K K2 x * b + u) (algebraMap K K2 y * b + v))
    (hm : ∀ {s a b X Y sx sy}, k.UW ext s a X sx → k.UW ext s b Y sy →
      Cmp tbl ext s (m a b) (fun r s' => k.UW ext s' r (f X Y) (h sx sy)))
    (hX : vecUW k e ext s as X sx) (hY : vecUW k e ext s bs Y sy) :
    Cmp tbl ext s (zipEqList m as bs) (fun r s' => vecUW k e ext s' r (g X Y) (List.zipWith h sx sy)) := by
  obtain ⟨qs, q1, q2, rfl, rfl⟩ := hX
  obtain ⟨ts, t1, t2, rfl, rfl⟩ := hY
  refine (zipEqList_cmp (S := k.D ext) (T := k.D ext) (W := k.D ext) (g := fun q t => (f q.1 t.1, h q.2 t.2))
    (fun _ _ _ _ => FieldCmp.D.mono) (fun _ _ _ _ => FieldCmp.D.mono) (fun _ _ _ _ => FieldCmp.D.mono) (fun _ _ _ _ _ h1 h2 => hm h1 h2) q2 t2 (q1.trans t1.symm)).weaken fun r s' hr => ?_
  refine ⟨_, by simp [q1, t1], hr, ?_, ?_⟩
  · rw [List.map_zipWith, ← List.zipWith_map, lin_zipWith f g h0 hg _ _ _ (by simp [q1, t1])]
  · rw [List.map_zipWith, List.zipWith_map]

theorem vecUW.map {e : List K2} {as : List F.U} {X : K2} {sx : List l.Sz} {m : F.U → M p F.U} {f : K → K}
    {h : l.Sz → l.Sz} {g : K2 → K2} (h0 : g 0 = 0)
    (hg : ∀ (x : K) (b u : K2), algebraMap K K2 (f x) * b + g u = g (algebraMap K K2 x * b + u))
    {I : Ctx p → Prop} (hI : ∀ {s s'}, I s → Ext s s' → I s') (hs : I s)
    (hm : ∀ {s a X sx}, I s → k.UW ext s a X sx → Cmp tbl ext s (m a) (fun r s' => k.UW ext s' r (f X) (h sx)))
    (hX : vecUW k e ext s as X sx) :
    Cmp tbl ext s (mapList m as) (fun r s' => vecUW k e ext s' r (g X) (sx.map h)) := by
  obtain ⟨qs, q1, q2, rfl, rfl⟩ := hX
  refine (mapList_cmp (S := fun s a q => I s ∧ k.D ext s a q) (T := k.D ext) (g := fun q => (f q.1, h q.2))
    (fun _ _ _ _ h e => ⟨hI h.1 e, h.2.mono e⟩) (fun _ _ _ _ => FieldCmp.D.mono) (fun _ _ _ h1 => hm h1.1 h1.2) (q2.imp fun _ _ h => ⟨hs, h⟩)).weaken
    fun r s' hr => ?_
  refine ⟨_, by simp [q1], hr, ?_, ?_⟩
  · rw [List.map_map, ← lin_map f g h0 hg, List.map_map]
    rfl
  · rw [List.map_map, List.map_map]
    rfl

theorem vecPW.map {e : List K2} {as : List F.P} {X : K2} {m : F.P → M p F.P} {f : K → K} {g : K2 → K2} (h0 : g 0 = 0)
    (hg : ∀ (x : K) (b u : K2), algebraMap K K2 (f x) * b + g u = g (algebraMap K K2 x * b + u))
    (hm : ∀ {s a X}, k.PW ext s a X → Cmp tbl ext s (m a) (fun r s' => k.PW ext s' r (f X)))
    (hX : vecRep e (k.PW ext s) as X) :
    Cmp tbl ext s (mapList m as) (fun r s' => vecRep e (k.PW ext s') r (g X)) := by
  obtain ⟨xs, q1, q2, rfl⟩ := hX
  refine (mapList_cmp (S := k.PW ext) (T := k.PW ext) (g := f) (fun _ _ _ _ h e => k.p_mono h e) (fun _ _ _ _ h e => k.p_mono h e) (fun _ _ _ h1 => hm h1)
    q2).weaken fun r s' hr => ?_
  exact ⟨_, by simp [q1], hr, by rw [← lin_map f g h0 hg]⟩

theorem pW_sz {e : List K2} {a : List F.P} {X : K2} {z : l.Sz} (hz : ∀ {a X}, k.PW ext s a X → k.UW ext s (F.ofP a) X z)
    (h : vecRep e (k.PW ext s) a X) : vecUW k e ext s (a.map F.ofP) X (List.replicate e.length z) := by
  obtain ⟨xs, h1, h2, rfl⟩ := h
  refine ⟨xs.map fun x => (x, z), by simp [h1], ?_, ?_, ?_⟩
  · rw [List.forall₂_map_left_iff, List.forall₂_map_right_iff]
    exact h2.imp fun a x hx => hz hx
  · rw [List.map_map]
    simp [Function.comp_def]
  · rw [List.map_map, ← h1]
    simp [Function.comp_def, List.map_const']

theorem mapList_getAssigned {as : List F.U} {qs : List (K × l.Sz)} (h : List.Forall₂ (k.D ext s) as qs) :
    ∃ vs, mapList F.getAssignedValue as = pure vs ∧ vs.map l.val = qs.map Prod.fst := by
  induction h with
  | nil => exact ⟨[], rfl, rfl⟩
  | cons h _ ih =>
    obtain ⟨v, h1, h2⟩ := k.getAssignedValue h
    obtain ⟨vs, h3, h4⟩ := ih
    refine ⟨v :: vs, ?_, by simp [h2, h4]⟩
    rw [mapList, h1, pure_bind, h3, pure_bind]

variable (k B)

/-- The extension chip is complete, given that its multiplication is. -/
def vecCmp (E : ExtField F) (d : ℕ) (hd : B.e.length = d) (hE : ∀ v, (E.coeffs v).length = d) (hz : ∀ v ∈ E.coeffs E.vzero, l.val v = 0)
    (mulNC : List F.U → List F.U → M p (List F.U)) (mulSz : List l.Sz → List l.Sz → List l.Sz) (hmul : ExtMul l B mulNC mulSz)
    (hmulC : ExtMulC k B mulNC mulSz)
    (hnew : ∀ vs, vs.length = d → lin B.e ((E.coeffs (E.new vs)).map l.val) = lin B.e (vs.map l.val))
    (hdiv : ∀ u v, lin B.e ((E.coeffs (E.vdiv u v)).map l.val) = lin B.e ((E.coeffs u).map l.val) / lin B.e ((E.coeffs v).map l.val))
    (hneg : ∀ u, lin B.e ((E.coeffs (E.vneg u)).map l.val) = -lin B.e ((E.coeffs u).map l.val)) :
    FieldCmp (vecLaws l B E d hd hE hz mulNC mulSz hmul) where
  UW := vecUW k B.e
  PW := fun ext s => vecRep B.e (k.PW ext s)
  cFits := fun (ss : List l.Sz) => ∀ s ∈ ss, k.cFits s
  zFits := fun (ss : List l.Sz) => ∀ s ∈ ss, k.zFits s
  u_mono := fun h e => h.mono e
  p_mono := fun h e => vecPW_mono h e
  p_u := by
    intro ext s a X h
    have := pW_sz (k := k) (z := l.pSz) (fun h => k.p_u h) h
    rwa [hd] at this
  cSz := List.replicate d k.cSz
  p_c := by
    intro ext s a X h
    have := pW_sz (k := k) (z := k.cSz) (fun h => k.p_c h) h
    rwa [hd] at this
  p_r := fun h => h.imp fun _ _ h => k.p_r h
  val_div := hdiv
  val_neg := hneg
  getAssignedValue := by
    rintro ext s a X sx ⟨qs, q1, q2, rfl, rfl⟩
    obtain ⟨vs, h1, h2⟩ := mapList_getAssigned q2
    refine ⟨E.new vs, ?_, ?_⟩
    · show extGetAssignedValue F E d a = _
      have hl : a.length = d := by rw [q2.length_eq, q1, hd]
      unfold extGetAssignedValue
      rw [h1, hl]
      simp only [beq_self_eq_true, assertM, if_true]
      rfl
    · show lin B.e _ = _
      rw [hnew, h2]
      have := congrArg List.length h2
      rw [List.length_map, List.length_map, q1, hd] at this
      exact this
  loadPrivate := fun (v : E.V) => by
    refine (mapList_cmp (S := fun _ v x => x = l.val v) (T := k.PW _) (g := id) (fun _ _ _ _ h _ => h) (fun _ _ _ _ h e => k.p_mono h e)
      (fun s a x h => by subst h; exact k.loadPrivate a) (as := E.coeffs v) (xs := (E.coeffs v).map l.val) (by
        rw [List.forall₂_map_right_iff, List.forall₂_same]; exact fun _ _ => rfl)).weaken fun r s' hr => ?_
    rw [List.map_id] at hr
    exact ⟨_, by rw [List.length_map, hE, hd], hr, rfl⟩
  loadConstant := fun (v : E.V) => by
    refine (mapList_cmp (S := fun _ v x => x = l.val v) (T := k.PW _) (g := id) (fun _ _ _ _ h _ => h) (fun _ _ _ _ h e => k.p_mono h e)
      (fun s a x h => by subst h; exact k.loadConstant a) (as := E.coeffs v) (xs := (E.coeffs v).map l.val) (by
        rw [List.forall₂_map_right_iff, List.forall₂_same]; exact fun _ _ => rfl)).weaken fun r s' hr => ?_
    rw [List.map_id] at hr
    exact ⟨_, by rw [List.length_map, hE, hd], hr, rfl⟩
  addNoCarry := fun ha hb => vecUW.zip (by simp) (by intro x y b u v; rw [map_add]; ring) (fun h1 h2 => k.addNoCarry h1 h2) ha hb
  addConstantNoCarry := by
    rintro ext s a X sx (v : E.V) ⟨qs, q1, q2, rfl, rfl⟩
    refine (zipEqList_cmp (S := k.D ext) (T := fun _ v x => x = l.val v) (W := k.D ext) (g := fun q y => (q.1 + y, l.addcSz q.2))
      (fun _ _ _ _ => FieldCmp.D.mono) (fun _ _ _ _ h _ => h) (fun _ _ _ _ => FieldCmp.D.mono) (fun s a b x y h1 h2 => by subst h2; exact k.addConstantNoCarry b h1) q2
      (bs := E.coeffs v) (ys := (E.coeffs v).map l.val) (by
        rw [List.forall₂_map_right_iff, List.forall₂_same]; exact fun _ _ => rfl) (by simp [q1, hE, hd])).weaken fun r s' hr => ?_
    refine ⟨_, by simp [q1, hE, hd], hr, ?_, ?_⟩
    · rw [List.map_zipWith]
      have := lin_zipWith (K := K) (K2 := K2) (· + ·) (· + ·) (by simp) (by intro x y b u v; rw [map_add]; ring) B.e
        (qs.map Prod.fst) ((E.coeffs v).map l.val) (by simp [q1, hE, hd])
      rw [List.zipWith_map_left] at this
      rw [this]
      rfl
    · have hl : qs.length = ((E.coeffs v).map l.val).length := by simp [q1, hE, hd]
      generalize (E.coeffs v).map l.val = ys at hl
      clear * - hl
      show List.map l.addcSz (qs.map Prod.snd) = _
      induction qs generalizing ys with
      | nil => simp
      | cons q qs ih =>
        cases ys with
        | nil => simp at hl
        | cons y ys => simp at hl; simp [← ih ys hl]
  subNoCarry := fun ha hb => vecUW.zip (by simp) (by intro x y b u v; rw [map_sub]; ring) (fun h1 h2 => k.subNoCarry h1 h2) ha hb
  negate := fun ha => vecPW.map (f := fun x => -x) (by simp) (by intro x b u; rw [map_neg]; ring) (fun h => k.negate h) ha
  scalarMulNoCarry := fun c hc ha => vecUW.map (f := fun x => x * (c : K)) (g := fun x => x * (c : K2)) (by simp)
      (by intro x b u; rw [map_mul, map_intCast]; ring) (I := fun _ => True) (fun _ _ => trivial) trivial
      (fun _ h => k.scalarMulNoCarry c hc h) ha
  scalarMulAddNoCarry := fun c hc ha hb => vecUW.zip (f := fun x y => x * (c : K) + y) (g := fun x y => x * (c : K2) + y) (by simp)
      (by intro x y b u v; rw [map_add, map_mul, map_intCast]; ring) (fun h1 h2 => k.scalarMulAddNoCarry c hc h1 h2) ha hb
  mulNoCarry := hmulC
  checkCarryModToZero := by
    rintro ext s a sx ⟨qs, q1, q2, h0, rfl⟩ hf
    have hz := (B.lin_eq_zero (xs := qs.map Prod.fst) (by simp [q1])).1 h0.symm
    refine forList_cmp (S := fun s a => ∃ z, k.UW ext s a 0 z ∧ k.zFits z) (fun _ _ _ ⟨z, h, h'⟩ e => ⟨z, k.u_mono h e, h'⟩)
      (fun _ _ ⟨z, h, h'⟩ => k.checkCarryModToZero h h') ?_
    clear q1 h0
    induction q2 with
    | nil => simp
    | @cons a q as qs h1 _ ih =>
      intro b hb
      rcases List.mem_cons.1 hb with rfl | hb
      · refine ⟨q.2, ?_, hf _ (by simp)⟩
        have := hz q.1 (by simp)
        unfold FieldCmp.D at h1
        rwa [this] at h1
      · exact ih (fun s hs => hf s (by rw [List.map_cons]; exact List.mem_cons_of_mem _ hs))
          (fun x hx => hz x (by rw [List.map_cons]; exact List.mem_cons_of_mem _ hx)) b hb
  carryMod := by
    rintro ext s a X sx ⟨qs, q1, q2, rfl, rfl⟩ hf
    refine (mapList_cmp (S := fun s a q => k.D ext s a q ∧ k.cFits q.2) (T := k.PW ext) (g := Prod.fst) (fun _ _ _ _ h e => ⟨h.1.mono e, h.2⟩)
      (fun _ _ _ _ h e => k.p_mono h e) (fun _ _ _ h => k.carryMod h.1 h.2) (as := a) (xs := qs) ?_).weaken fun r s' hr =>
      ⟨_, by simp [q1], hr, rfl⟩
    clear q1
    induction q2 with
    | nil => exact .nil
    | cons h1 _ ih =>
      exact .cons ⟨h1, hf _ (by simp)⟩ (ih fun s hs => hf s (by rw [List.map_cons]; exact List.mem_cons_of_mem _ hs))
  enforceLessThan := fun ha => vecPW.map (f := fun x => x) (g := fun x => x) rfl (fun _ _ _ => rfl) (fun h => k.enforceLessThan h) ha
  isSoftZero := by
    rintro ext s a X ⟨xs, x1, x2, rfl⟩
    refine (foldGate1_and_cmp (S := k.PW ext) (P := fun x => x = 0) (fun _ _ _ _ h e => k.p_mono h e) (fun _ _ _ h => k.isSoftZero h) x2 (by
      rintro rfl; exact B.pos (List.length_eq_zero_iff.1 x1.symm))).weaken fun r s' hr => ?_
    unfold bit at *
    simpa only [B.lin_eq_zero x1] using hr
  isSoftNonzero := by
    rintro ext s a X ⟨xs, x1, x2, rfl⟩
    refine (foldGate1_or_cmp (S := k.PW ext) (P := fun x => x ≠ 0) (fun _ _ _ _ h e => k.p_mono h e) (fun _ _ _ h => k.isSoftNonzero h) x2 (by
      rintro rfl; exact B.pos (List.length_eq_zero_iff.1 x1.symm))).weaken fun r s' hr => ?_
    have : lin B.e xs ≠ 0 ↔ ∃ x ∈ xs, x ≠ 0 := by
      rw [ne_eq, B.lin_eq_zero x1]
      push Not
      rfl
    unfold bit at *
    simpa only [this] using hr
  isZero := by
    rintro ext s a X ⟨xs, x1, x2, rfl⟩
    refine (foldGate1_and_cmp (S := k.PW ext) (P := fun x => x = 0) (fun _ _ _ _ h e => k.p_mono h e) (fun _ _ _ h => k.isZero h) x2 (by
      rintro rfl; exact B.pos (List.length_eq_zero_iff.1 x1.symm))).weaken fun r s' hr => ?_
    unfold bit at *
    simpa only [B.lin_eq_zero x1] using hr
  isEqualUnenforced := by
    rintro ext s a b X Y ⟨xs, x1, x2, rfl⟩ ⟨ys, y1, y2, rfl⟩
    have heq : lin B.e xs = lin B.e ys ↔ xs = ys := ⟨B.indep _ _ x1 y1, fun h => by rw [h]⟩
    refine (foldEq1_cmp (S := k.PW ext) (fun _ _ _ _ h e => k.p_mono h e) (fun _ _ _ _ _ h1 h2 => k.isEqualUnenforced h1 h2) x2 y2 (by rw [x1, y1]) (by
      rintro rfl; exact B.pos (List.length_eq_zero_iff.1 x1.symm))).weaken fun r s' hr => ?_
    unfold bit at *
    simpa only [heq] using hr
  assertEqual := by
    rintro ext s a b X ⟨xs, x1, x2, rfl⟩ ⟨ys, y1, y2, he⟩
    obtain rfl := B.indep _ _ x1 y1 he
    exact forZip_cmp (S := k.PW ext) (T := k.PW ext) (fun _ _ _ _ h e => k.p_mono h e) (fun _ _ _ _ h e => k.p_mono h e)
      (fun _ _ _ _ h1 h2 => k.assertEqual h1 h2) x2 y2
  select := by
    rintro ext s a b X Y sel t _ ⟨xs, x1, x2, rfl⟩ ⟨ys, y1, y2, rfl⟩ hs
    refine (zipEqList_cmp (S := fun s a x => k.PW ext s a x ∧ Con ext s sel (bit t)) (T := k.PW ext) (W := k.PW ext)
      (g := fun x y => if t then x else y) (fun _ _ _ _ h e => ⟨k.p_mono h.1 e, h.2.mono e⟩) (fun _ _ _ _ h e => k.p_mono h e)
      (fun _ _ _ _ h e => k.p_mono h e) (fun _ _ _ _ _ h1 h2 => k.select h1.1 h2 h1.2) (x2.imp fun _ _ h => ⟨h, hs⟩) y2 (by rw [x1, y1])).weaken
      fun r s' hr => ?_
    refine ⟨_, by simp [x1, y1], hr, ?_⟩
    have hl : xs.length = ys.length := by rw [x1, y1]
    by_cases ht : t
    · simp only [ht, if_true]
      congr 1
      exact (zipWith_fst xs ys hl).symm
    · simp only [ht, if_false]
      congr 1
      exact (zipWith_snd xs ys hl).symm

end
end H2
