import Verif.Core.Layable

/-!
# Relational logic: two runs of the same routine

`k = true`  : a keygen-mode run against a prover-mode (`witness_gen_only`) run with the same values.
`k = false` : two keygen-mode runs with different witness values but the same cells and constants.
-/

set_option autoImplicit false
namespace H2
variable {p : ℕ}

/-- Related data: equal in prover mode, unrelated when comparing shapes. -/
def RV {α : Type} (k : Bool) (x y : α) : Prop := k = true → x = y

/-- Related assigned values: same value and no cell in prover mode; same cell when comparing shapes. -/
def RA (k : Bool) (a b : AV p) : Prop :=
  (k = true → a.value = b.value ∧ b.cell = none) ∧ (k = false → a.cell = b.cell)

/-- Related quantum cells: same constructor, same constants. -/
def RQ (k : Bool) : QCell p → QCell p → Prop
  | .existing a, .existing b => RA k a b
  | .witness x, .witness y => RV k x y
  | .witnessFraction x, .witnessFraction y => RV k x y
  | .constant c, .constant d => c = d
  | _, _ => False

abbrev RAs (k : Bool) : List (AV p) → List (AV p) → Prop := List.Forall₂ (RA k)
abbrev RQs (k : Bool) : List (QCell p) → List (QCell p) → Prop := List.Forall₂ (RQ k)

/-- Related optional assigned values. -/
inductive RO (k : Bool) : Option (AV p) → Option (AV p) → Prop
  | none : RO k none none
  | some {a b : AV p} : RA k a b → RO k (some a) (some b)

/-- Related contexts. -/
structure RS (k : Bool) (s t : Ctx p) : Prop where
  wl : s.wgo = false
  wr : t.wgo = k
  typeId : s.typeId = t.typeId
  ctxId : s.ctxId = t.ctxId
  len : s.advice.length = t.advice.length
  advice : k = true → s.advice = t.advice
  zero : RO k s.zeroCell t.zeroCell
  selector : k = false → s.selector = t.selector
  eqs : k = false → s.eqs = t.eqs
  consts : k = false → s.consts = t.consts
  lookups : RAs k s.lookups t.lookups

/-- The right run records no constraint in prover mode. -/
def Frame (k : Bool) (t t' : Ctx p) : Prop :=
  k = true → t'.selector = t.selector ∧ t'.eqs = t.eqs ∧ t'.consts = t.consts

/-- Relational triple.  Prover mode: whenever the keygen run succeeds, so does the prover run, with related
results.  Shape mode: whenever both runs succeed, the results are related. -/
def Rel0 {α β : Type} (k : Bool) (m : M p α) (m' : M p β) (Q : α → β → Prop) : Prop :=
  ∀ s t, RS k s t → ∀ r s', m s = some (r, s') →
    (k = true → ∃ r' t', m' t = some (r', t')) ∧
    ∀ r' t', m' t = some (r', t') → RS k s' t' ∧ Frame k t t' ∧ Q r r'

/-- `Rel0`, and in prover mode the keygen run keeps its thread layable (claimed under the condition `l`, for the routines
that do so only for well-formed arguments). -/
def Rel {α β : Type} (k : Bool) (m : M p α) (m' : M p β) (Q : α → β → Prop) (l : Prop := True) : Prop :=
  ∀ s t, RS k s t → ∀ r s', m s = some (r, s') →
    (k = true → (l → Layable s → Layable s') ∧ ∃ r' t', m' t = some (r', t')) ∧
    ∀ r' t', m' t = some (r', t') → RS k s' t' ∧ Frame k t t' ∧ Q r r'

variable {α β γ δ : Type} {k : Bool} {l : Prop}

theorem Rel.of0 {m : M p α} {m' : M p β} {Q : α → β → Prop} (h : Rel0 k m m' Q) (hl : k = true → l → Lay m) :
    Rel k m m' Q l := fun s t hs r s' hr =>
  ⟨fun hk => ⟨fun h1 h2 => hl hk h1 s hs.wl h2 r s' hr, (h s t hs r s' hr).1 hk⟩, (h s t hs r s' hr).2⟩

theorem Rel.to0 {m : M p α} {m' : M p β} {Q : α → β → Prop} (h : Rel k m m' Q l) : Rel0 k m m' Q :=
  fun s t hs r s' hr => ⟨fun hk => ((h s t hs r s' hr).1 hk).2, (h s t hs r s' hr).2⟩

theorem Rel.mono {m : M p α} {m' : M p β} {Q : α → β → Prop} {l' : Prop} (h : Rel k m m' Q l) (hl : l' → l) : Rel k m m' Q l' :=
  fun s t hs r s' hr => ⟨fun hk => ⟨fun h1 => ((h s t hs r s' hr).1 hk).1 (hl h1), ((h s t hs r s' hr).1 hk).2⟩, (h s t hs r s' hr).2⟩

theorem RS.cellAt {s t : Ctx p} (h : RS k s t) (i : ℕ) : s.cellAt i = t.cellAt i := by
  simp [Ctx.cellAt, h.typeId, h.ctxId]

theorem RV.refl (x : α) : RV k x x := fun _ => rfl
theorem RV.map {x y : α} (f : α → β) (h : RV k x y) : RV k (f x) (f y) := fun hk => by rw [h hk]
theorem RV.map2 {x y : α} {u v : β} (f : α → β → γ) (h : RV k x y) (h2 : RV k u v) :
    RV k (f x u) (f y v) := fun hk => by rw [h hk, h2 hk]

theorem Rel0.bind {m : M p α} {m' : M p β} {f : α → M p γ} {f' : β → M p δ} {Q : α → β → Prop}
    {R : γ → δ → Prop} (h : Rel0 k m m' Q) (hf : ∀ r r', Q r r' → Rel0 k (f r) (f' r') R) :
    Rel0 k (m >>= f) (m' >>= f') R := by
  intro s t hs r s2 hr
  obtain ⟨a, s1, h1, h2⟩ := bind_some.1 hr
  obtain ⟨e, q⟩ := h s t hs a s1 h1
  refine ⟨fun hk => ?_, fun r' t2 hr' => ?_⟩
  · obtain ⟨a', t1, h1'⟩ := e hk
    obtain ⟨c, _, d⟩ := q a' t1 h1'
    obtain ⟨r', t2, h2'⟩ := (hf a a' d s1 t1 c r s2 h2).1 hk
    exact ⟨r', t2, bind_some.2 ⟨a', t1, h1', h2'⟩⟩
  · obtain ⟨a', t1, h1', h2'⟩ := bind_some.1 hr'
    obtain ⟨c, fr, d⟩ := q a' t1 h1'
    obtain ⟨c2, fr2, d2⟩ := (hf a a' d s1 t1 c r s2 h2).2 r' t2 h2'
    refine ⟨c2, fun hk => ?_, d2⟩
    obtain ⟨x1, x2, x3⟩ := fr hk
    obtain ⟨y1, y2, y3⟩ := fr2 hk
    exact ⟨y1.trans x1, y2.trans x2, y3.trans x3⟩

theorem Rel.bind {m : M p α} {m' : M p β} {f : α → M p γ} {f' : β → M p δ} {Q : α → β → Prop}
    {R : γ → δ → Prop} (h : Rel k m m' Q l) (hf : ∀ r r', Q r r' → Rel k (f r) (f' r') R l) :
    Rel k (m >>= f) (m' >>= f') R l := by
  intro s t hs r s2 hr
  obtain ⟨a, s1, h1, h2⟩ := bind_some.1 hr
  obtain ⟨e, q⟩ := h s t hs a s1 h1
  refine ⟨fun hk => ?_, fun r' t2 hr' => ?_⟩
  · obtain ⟨y, a', t1, h1'⟩ := e hk
    obtain ⟨c, _, d⟩ := q a' t1 h1'
    obtain ⟨y', r', t2, h2'⟩ := (hf a a' d s1 t1 c r s2 h2).1 hk
    exact ⟨fun x h => y' x (y x h), r', t2, bind_some.2 ⟨a', t1, h1', h2'⟩⟩
  · obtain ⟨a', t1, h1', h2'⟩ := bind_some.1 hr'
    obtain ⟨c, fr, d⟩ := q a' t1 h1'
    obtain ⟨c2, fr2, d2⟩ := (hf a a' d s1 t1 c r s2 h2).2 r' t2 h2'
    refine ⟨c2, fun hk => ?_, d2⟩
    obtain ⟨x1, x2, x3⟩ := fr hk
    obtain ⟨y1, y2, y3⟩ := fr2 hk
    exact ⟨y1.trans x1, y2.trans x2, y3.trans x3⟩

theorem Frame.refl (t : Ctx p) : Frame k t t := fun _ => ⟨rfl, rfl, rfl⟩

theorem Rel0.pure {a : α} {b : β} {Q : α → β → Prop} (h : Q a b) :
    Rel0 k (pure a : M p α) (pure b : M p β) Q := Rel.to0 (l := True) (by
  intro s t hs r s' hr
  simp only [pure_apply, Option.some.injEq, Prod.mk.injEq] at hr
  obtain ⟨rfl, rfl⟩ := hr
  refine ⟨fun _ => ⟨fun _ h => h, b, t, rfl⟩, fun r' t' hr' => ?_⟩
  simp only [pure_apply, Option.some.injEq, Prod.mk.injEq] at hr'
  obtain ⟨rfl, rfl⟩ := hr'
  exact ⟨hs, Frame.refl _, h⟩)

theorem Rel.pure {a : α} {b : β} {Q : α → β → Prop} (h : Q a b) :
    Rel k (pure a : M p α) (pure b : M p β) Q l := by
  intro s t hs r s' hr
  simp only [pure_apply, Option.some.injEq, Prod.mk.injEq] at hr
  obtain ⟨rfl, rfl⟩ := hr
  refine ⟨fun _ => ⟨fun _ h => h, b, t, rfl⟩, fun r' t' hr' => ?_⟩
  simp only [pure_apply, Option.some.injEq, Prod.mk.injEq] at hr'
  obtain ⟨rfl, rfl⟩ := hr'
  exact ⟨hs, Frame.refl _, h⟩

theorem Rel.weaken {m : M p α} {m' : M p β} {Q R : α → β → Prop} (h : Rel k m m' Q l)
    (hq : ∀ r r', Q r r' → R r r') : Rel k m m' R l := by
  intro s t hs r s' hr
  obtain ⟨a, b⟩ := h s t hs r s' hr
  exact ⟨a, fun r' t' h' => ⟨(b r' t' h').1, (b r' t' h').2.1, hq _ _ (b r' t' h').2.2⟩⟩

theorem Rel.panic {m' : M p β} {Q : α → β → Prop} : Rel k (panic : M p α) m' Q l := by
  intro s t hs r s' hr
  simp [H2.panic] at hr

theorem Rel.ite {c c' : Prop} [Decidable c] [Decidable c'] {m1 m2 : M p α} {n1 n2 : M p β}
    {Q : α → β → Prop} (hc : c ↔ c') (h1 : c → Rel k m1 n1 Q l) (h2 : ¬ c → Rel k m2 n2 Q l) :
    Rel k (if c then m1 else m2) (if c' then n1 else n2) Q l := by
  by_cases h : c
  · rw [if_pos h, if_pos (hc.1 h)]; exact h1 h
  · rw [if_neg h, if_neg (fun h' => h (hc.2 h'))]; exact h2 h

/-- A routine that only reads. -/
theorem Rel.read {m : M p α} {m' : M p β} {Q : α → β → Prop}
    (h1 : ∀ s r s', m s = some (r, s') → s' = s) (h2 : ∀ s r s', m' s = some (r, s') → s' = s)
    (h3 : ∀ s t, RS k s t → ∀ r, m s = some (r, s) → (k = true → ∃ r', m' t = some (r', t)) ∧
      ∀ r', m' t = some (r', t) → Q r r') : Rel k m m' Q l := by
  intro s t hs r s' hr
  have e := h1 _ _ _ hr
  subst e
  obtain ⟨x, y⟩ := h3 _ t hs r hr
  refine ⟨fun hk => ?_, fun r' t' hr' => ?_⟩
  · obtain ⟨r', h'⟩ := x hk; exact ⟨fun _ h => h, r', t, h'⟩
  · have e := h2 _ _ _ hr'
    subst e
    exact ⟨hs, Frame.refl _, y r' hr'⟩

theorem unwrap_state {o : Option α} {s s' : Ctx p} {r : α} (h : unwrap o s = some (r, s')) :
    o = some r ∧ s' = s := by
  cases o with
  | none => simp [unwrap] at h
  | some a => simp [unwrap] at h; exact ⟨by rw [h.1], h.2.symm⟩

/-- `unwrap` of data that is related as soon as both are present (and present together in prover mode). -/
theorem unwrap_rel {o : Option α} {o' : Option β} {Q : α → β → Prop}
    (h1 : k = true → ∀ a, o = some a → ∃ b, o' = some b) (h : ∀ a b, o = some a → o' = some b → Q a b) :
    Rel k (unwrap o : M p α) (unwrap o' : M p β) Q l := by
  refine Rel.read (fun _ _ _ h => (unwrap_state h).2) (fun _ _ _ h => (unwrap_state h).2) ?_
  intro s t hs r hr
  have hr := (unwrap_state hr).1
  refine ⟨fun hk => ?_, fun r' hr' => h _ _ hr (unwrap_state hr').1⟩
  obtain ⟨b, hb⟩ := h1 hk r hr
  exact ⟨b, by simp [unwrap, hb]⟩

theorem RA.val {a b : AV p} (h : RA k a b) (hk : k = true) : a.val? = b.val? := by
  simp [AV.val?, (h.1 hk).1]

theorem RA.q {a b : AV p} (h : RA k a b) : RQ k (.existing a) (.existing b) := h

theorem RQ.constant_rfl (c : ZMod p) : RQ k (.constant c) (.constant c) := rfl

theorem RQ.val {a b : QCell p} (h : RQ k a b) (hk : k = true) : a.val? = b.val? := by
  cases a <;> cases b <;> simp only [RQ, QCell.val?] at h ⊢
  · exact h.val hk
  · rw [h hk]
  · rw [h]

theorem RQ.assigned {a b : QCell p} (h : RQ k a b) (hk : k = true) : a.assigned = b.assigned := by
  cases a <;> cases b <;> simp only [RQ, QCell.assigned] at h ⊢
  · exact (h.1 hk).1
  · rw [h hk]
  · rw [h hk]
  · rw [h]

theorem unwrapA_rel {a b : AV p} (h : RA k a b) :
    Rel k (unwrap a.val? : M p _) (unwrap b.val?) (RV k) l :=
  unwrap_rel (fun hk x hx => ⟨x, by rw [← h.val hk, hx]⟩) (fun x y hx hy hk => by
    rw [h.val hk, hy] at hx; exact (Option.some.inj hx).symm)

theorem unwrapQ_rel {a b : QCell p} (h : RQ k a b) :
    Rel k (unwrap a.val? : M p _) (unwrap b.val?) (RV k) l :=
  unwrap_rel (fun hk x hx => ⟨x, by rw [← h.val hk, hx]⟩) (fun x y hx hy hk => by
    rw [h.val hk, hy] at hx; exact (Option.some.inj hx).symm)

theorem RAs.get? {l l' : List (AV p)} (h : RAs k l l') (i : ℕ) : RO k l[i]? l'[i]? := by
  induction h generalizing i with
  | nil => simpa using RO.none
  | cons h _ ih => cases i with
    | zero => simpa using RO.some h
    | succ i => simpa using ih i

theorem RQs.get? {l l' : List (QCell p)} (h : RQs k l l') (i : ℕ) :
    (l[i]? = none ∧ l'[i]? = none) ∨ ∃ a b, l[i]? = some a ∧ l'[i]? = some b ∧ RQ k a b := by
  induction h generalizing i with
  | nil => simp
  | cons h _ ih => cases i with
    | zero => simp [h]
    | succ i => simpa using ih i

theorem unwrapO_rel {o o' : Option (AV p)} (h : RO k o o') :
    Rel k (unwrap o : M p _) (unwrap o') (RA k) l := by
  cases h with
  | none => exact unwrap_rel (by simp) (by simp)
  | some h => exact unwrap_rel (by simp) (by rintro a b ⟨rfl⟩ ⟨rfl⟩; exact h)

theorem assertM_state {c : Bool} {s s' : Ctx p} {r : Unit} (h : assertM c s = some (r, s')) :
    c = true ∧ s' = s := by
  cases c <;> simp [assertM] at h
  exact ⟨rfl, h.symm⟩

theorem assertM_rel {c c' : Bool} (h : k = true → c = c') :
    Rel k (assertM c : M p Unit) (assertM c') (fun _ _ => c = true ∧ c' = true) l := by
  refine Rel.read (fun _ _ _ h => (assertM_state h).2) (fun _ _ _ h => (assertM_state h).2) ?_
  intro s t hs r hr
  refine ⟨fun hk => ⟨(), ?_⟩, fun r' hr' => ⟨(assertM_state hr).1, (assertM_state hr').1⟩⟩
  simp [assertM, ← h hk, (assertM_state hr).1]

theorem adviceLen_rel : Rel k (adviceLen : M p ℕ) adviceLen (fun a b => a = b) l := by
  refine Rel.read (by simp [adviceLen]) (by simp [adviceLen]) ?_
  intro s t hs r hr
  simp only [adviceLen, Option.some.injEq, Prod.mk.injEq, and_true] at hr ⊢
  exact ⟨fun _ => ⟨_, rfl⟩, fun r' h => by rw [← hr, ← h, hs.len]⟩

theorem getWgo_rel : Rel k (getWgo : M p Bool) getWgo (fun a b => a = false ∧ b = k) l := by
  refine Rel.read (by simp [getWgo]) (by simp [getWgo]) ?_
  intro s t hs r hr
  simp only [getWgo, Option.some.injEq, Prod.mk.injEq, and_true] at hr ⊢
  exact ⟨fun _ => ⟨_, rfl⟩, fun r' h => ⟨by rw [← hr, hs.wl], by rw [← h, hs.wr]⟩⟩

theorem assignCell_rel0 {q q' : QCell p} (h : RQ k q q') :
    Rel0 k (assignCell q) (assignCell q') (fun _ _ => True) := by
  intro s t hs r s' hr
  have hl := hs.wl
  have hwr := hs.wr
  have hz := hs.zero
  have hlk := hs.lookups
  have hadv : k = true → ∀ v, s.advice ++ [v] = t.advice ++ [v] := fun hk v => by rw [hs.advice hk]
  cases q with
  | existing a => cases q' with
    | existing b =>
      simp only [assignCell, hl, Bool.false_eq_true, if_false, Option.map_eq_some_iff, Prod.mk.injEq] at hr
      obtain ⟨c, hc, -, rfl⟩ := hr
      simp only [RQ] at h
      cases k with
      | true =>
        obtain ⟨hv, -⟩ := h.1 rfl
        simp only [assignCell, hwr, if_true, Option.some.injEq, Prod.mk.injEq]
        refine ⟨fun _ => by first | exact ⟨(), _, trivial, rfl⟩ | exact ⟨_, _, rfl, rfl⟩, ?_⟩
        rintro - t' ⟨-, rfl⟩
        exact ⟨⟨by first | exact rfl | exact hl, by first | exact rfl | exact hwr, hs.typeId, hs.ctxId, by simp [hs.len], fun hk => by simp [hs.advice hk, hv], hz,
          by simp, by simp, by simp, hlk⟩, fun _ => ⟨rfl, rfl, rfl⟩, trivial⟩
      | false =>
        have hcell := h.2 rfl
        refine ⟨by simp, fun r' t' hr' => ?_⟩
        simp only [assignCell, hwr, Bool.false_eq_true, if_false, Option.map_eq_some_iff, Prod.mk.injEq] at hr'
        obtain ⟨c', hc', -, rfl⟩ := hr'
        rw [hcell, hc'] at hc
        cases hc
        exact ⟨⟨by first | exact rfl | exact hl, by first | exact rfl | exact hwr, hs.typeId, hs.ctxId, by simp [hs.len], by simp, hz,
          fun _ => hs.selector rfl, fun _ => by simp [hs.eqs rfl, hs.len, hs.cellAt],
          fun _ => hs.consts rfl, hlk⟩, by simp [Frame], trivial⟩
    | _ => simp [RQ] at h
  | witness x => cases q' with
    | witness y =>
      simp only [assignCell, Option.some.injEq, Prod.mk.injEq] at hr ⊢
      obtain ⟨-, rfl⟩ := hr
      refine ⟨fun _ => by first | exact ⟨(), _, trivial, rfl⟩ | exact ⟨_, _, rfl, rfl⟩, ?_⟩
      rintro - t' ⟨-, rfl⟩
      exact ⟨⟨by first | exact rfl | exact hl, by first | exact rfl | exact hwr, hs.typeId, hs.ctxId, by simp [hs.len], fun hk => by simp [hs.advice hk, h hk], hz,
          hs.selector, hs.eqs, hs.consts, hlk⟩, fun _ => ⟨rfl, rfl, rfl⟩, trivial⟩
    | _ => simp [RQ] at h
  | witnessFraction x => cases q' with
    | witnessFraction y =>
      simp only [assignCell, Option.some.injEq, Prod.mk.injEq] at hr ⊢
      obtain ⟨-, rfl⟩ := hr
      refine ⟨fun _ => by first | exact ⟨(), _, trivial, rfl⟩ | exact ⟨_, _, rfl, rfl⟩, ?_⟩
      rintro - t' ⟨-, rfl⟩
      exact ⟨⟨by first | exact rfl | exact hl, by first | exact rfl | exact hwr, hs.typeId, hs.ctxId, by simp [hs.len], fun hk => by simp [hs.advice hk, h hk], hz,
          hs.selector, hs.eqs, hs.consts, hlk⟩, fun _ => ⟨rfl, rfl, rfl⟩, trivial⟩
    | _ => simp [RQ] at h
  | constant x => cases q' with
    | constant y =>
      simp only [assignCell, hl, Bool.false_eq_true, if_false, Option.some.injEq, Prod.mk.injEq] at hr
      obtain ⟨-, rfl⟩ := hr
      simp only [RQ] at h
      subst h
      cases k with
      | true =>
        simp only [assignCell, hwr, if_true, Option.some.injEq, Prod.mk.injEq]
        refine ⟨fun _ => by first | exact ⟨(), _, trivial, rfl⟩ | exact ⟨_, _, rfl, rfl⟩, ?_⟩
        rintro - t' ⟨-, rfl⟩
        exact ⟨⟨by first | exact rfl | exact hl, by first | exact rfl | exact hwr, hs.typeId, hs.ctxId, by simp [hs.len], fun hk => by simp [hs.advice hk], hz,
          by simp, by simp, by simp, hlk⟩, fun _ => ⟨rfl, rfl, rfl⟩, trivial⟩
      | false =>
        refine ⟨by simp, fun r' t' hr' => ?_⟩
        simp only [assignCell, hwr, Bool.false_eq_true, if_false, Option.some.injEq, Prod.mk.injEq] at hr'
        obtain ⟨-, rfl⟩ := hr'
        exact ⟨⟨by first | exact rfl | exact hl, by first | exact rfl | exact hwr, hs.typeId, hs.ctxId, by simp [hs.len], by simp, hz,
          fun _ => hs.selector rfl, fun _ => hs.eqs rfl,
          fun _ => by simp [hs.consts rfl, hs.len, hs.cellAt], hlk⟩, by simp [Frame], trivial⟩
    | _ => simp [RQ] at h

theorem assignCells_rel0 {qs qs' : List (QCell p)} (h : RQs k qs qs') :
    Rel0 k (assignCells qs) (assignCells qs') (fun _ _ => True) := by
  induction h with
  | nil => exact Rel0.pure trivial
  | cons h _ ih => exact (assignCell_rel0 h).bind fun _ _ _ => ih

theorem resize_rel0 : Rel0 false
    (fun s => some ((), { s with selector := resize s.selector s.advice.length }) : M p Unit)
    (fun s => some ((), { s with selector := resize s.selector s.advice.length }) : M p Unit)
    (fun _ _ => True) := by
  intro s t hs r s' hr
  simp only [Option.some.injEq, Prod.mk.injEq] at hr ⊢
  obtain ⟨-, rfl⟩ := hr
  refine ⟨by simp, ?_⟩
  rintro - t' ⟨-, rfl⟩
  exact ⟨⟨by first | exact rfl | exact hs.wl, by first | exact rfl | exact hs.wr, hs.typeId, hs.ctxId, hs.len, hs.advice, hs.zero,
    fun _ => by simp [hs.selector rfl, hs.len], hs.eqs, hs.consts, hs.lookups⟩, by simp [Frame], trivial⟩

theorem enableGates_rel0 (row : ℕ) (gs : List ℤ) :
    Rel0 false (enableGates row gs : M p Unit) (enableGates row gs) (fun _ _ => True) := by
  induction gs with
  | nil => exact Rel0.pure trivial
  | cons g gs ih =>
    refine Rel0.bind (Q := fun _ _ => True) ?_ fun _ _ _ => ih
    intro s t hs r s' hr
    refine ⟨by simp, fun r' t' hr' => ?_⟩
    simp only at hr hr'
    split at hr
    · split at hr'
      · simp only [Option.some.injEq, Prod.mk.injEq] at hr hr'
        obtain ⟨-, rfl⟩ := hr
        obtain ⟨-, rfl⟩ := hr'
        exact ⟨⟨by first | exact rfl | exact hs.wl, by first | exact rfl | exact hs.wr, hs.typeId, hs.ctxId, hs.len, hs.advice, hs.zero,
          fun _ => by simp [hs.selector rfl], hs.eqs, hs.consts, hs.lookups⟩, by simp [Frame], trivial⟩
      · simp at hr'
    · simp at hr

theorem assignRegion_state_wgo {qs : List (QCell p)} {gs : List ℤ} {t : Ctx p} (h : t.wgo = true) :
    assignRegion qs gs t = assignCells qs t := by simp [assignRegion, h]

/-- Success of the tail of `assign_region` is not needed in prover mode. -/
theorem assignRegion_rel0 {qs qs' : List (QCell p)} {gs gs' : List ℤ} (h : RQs k qs qs')
    (hg : k = false → gs = gs') :
    Rel0 k (assignRegion qs gs) (assignRegion qs' gs') (fun _ _ => True) := by
  intro s t hs r s' hr
  cases k with
  | false =>
    obtain rfl := hg rfl
    have hr1 := hr
    simp only [assignRegion, hs.wl, Bool.false_eq_true, if_false] at hr1
    refine ⟨by simp, fun r' t' hr' => ?_⟩
    simp only [assignRegion, hs.wr, Bool.false_eq_true, if_false] at hr'
    rw [← hs.len] at hr'
    exact (((assignCells_rel0 h).bind fun _ _ _ => resize_rel0.bind fun _ _ _ =>
      enableGates_rel0 s.advice.length gs) s t hs r s' hr1).2 r' t' hr'
  | true =>
    have hr1 := hr
    simp only [assignRegion, hs.wl, Bool.false_eq_true, if_false] at hr1
    rw [assignRegion_state_wgo hs.wr]
    obtain ⟨u, s1, h1, h2⟩ := bind_some.1 hr1
    obtain ⟨e, q⟩ := assignCells_rel0 h s t hs u s1 h1
    refine ⟨e, fun r' t' hr' => ?_⟩
    obtain ⟨a, b, -⟩ := q r' t' hr'
    refine ⟨?_, b, trivial⟩
    obtain ⟨_, s2, h3, h4⟩ := bind_some.1 h2
    simp only [Option.some.injEq, Prod.mk.injEq] at h3
    obtain ⟨-, rfl⟩ := h3
    have key : ∀ (gs : List ℤ) (row : ℕ) (x y : Ctx p) (u : Unit), enableGates row gs x = some (u, y) →
        RS true x t' → RS true y t' := by
      intro gs
      induction gs with
      | nil => intro row x y u h hx; simp [enableGates] at h; exact h ▸ hx
      | cons g gs ih =>
        intro row x y u h hx
        obtain ⟨_, z, h5, h6⟩ := bind_some.1 h
        refine ih row z y u h6 ?_
        simp only at h5
        split at h5
        · simp only [Option.some.injEq, Prod.mk.injEq] at h5
          obtain ⟨-, rfl⟩ := h5
          exact ⟨hx.wl, hx.wr, hx.typeId, hx.ctxId, hx.len, hx.advice, hx.zero, by simp, by simp, by simp,
            hx.lookups⟩
        · simp at h5
    exact key _ _ _ _ _ h4 ⟨a.wl, a.wr, a.typeId, a.ctxId, a.len, a.advice, a.zero, by simp, by simp,
      by simp, a.lookups⟩

theorem last_rel : Rel k (last? : M p _) last? (RO k) l := by
  refine Rel.read (by simp [last?]) (by simp [last?]) ?_
  intro s t hs r hr
  simp only [last?, Option.some.injEq, Prod.mk.injEq, and_true] at hr ⊢
  refine ⟨fun _ => ⟨_, rfl⟩, ?_⟩
  rintro r' rfl
  subst hr
  rw [hs.wl, hs.wr]
  have hlen := hs.len
  cases hx : s.advice.getLast? with
  | none =>
    have h0 : s.advice = [] := by simpa using hx
    have h1 : t.advice = [] := by
      rw [h0] at hlen; exact List.length_eq_zero_iff.1 hlen.symm
    rw [h1]; exact RO.none
  | some v =>
    cases hy : t.advice.getLast? with
    | none =>
      have h0 : t.advice = [] := by simpa using hy
      rw [h0] at hlen
      rw [List.length_eq_zero_iff.1 hlen] at hx
      simp at hx
    | some v' =>
      refine RO.some ⟨fun hk => ?_, fun hk => ?_⟩
      · subst hk
        rw [hs.advice rfl, hy] at hx
        cases hx
        simp
      · subst hk
        simp [hs.len, hs.cellAt]

theorem lastM_rel : Rel k (lastM : M p _) lastM (RA k) l := last_rel.bind fun _ _ h => unwrapO_rel h

theorem getM_rel (o : ℤ) : Rel k (getM o : M p _) (getM o) (RA k) l := by
  have st : ∀ (s : Ctx p) r s', getM o s = some (r, s') → s' = s := by
    intro s r s' h
    simp only [getM] at h
    generalize (if o < 0 then (s.advice.length : ℤ) + o else o) = i at h
    split at h
    · simp at h
    · simp only [Option.map_eq_some_iff, Prod.mk.injEq] at h
      obtain ⟨_, _, _, h⟩ := h
      exact h.symm
  refine Rel.read st st ?_
  intro s t hs r hr
  simp only [getM] at hr ⊢
  rw [← hs.len, hs.wr]
  rw [hs.wl] at hr
  generalize (if o < 0 then (s.advice.length : ℤ) + o else o) = i at hr ⊢
  split at hr
  · simp at hr
  · rename_i hi
    simp only [hi, if_false, Option.map_eq_some_iff, Prod.mk.injEq, and_true, Bool.false_eq_true] at hr ⊢
    obtain ⟨v, hv, rfl⟩ := hr
    have hlt : i.toNat < t.advice.length := by
      rw [← hs.len]; exact (List.getElem?_eq_some_iff.1 hv).1
    refine ⟨fun _ => ⟨_, _, List.getElem?_eq_getElem hlt, rfl⟩, ?_⟩
    rintro r' ⟨v', hv', rfl⟩
    refine ⟨fun hk => ?_, fun hk => ?_⟩
    · subst hk
      rw [hs.advice rfl, hv'] at hv
      cases hv
      simp
    · subst hk
      simp [hs.cellAt]

theorem constrainEqual_rel0 {a b a' b' : AV p} (ha : RA k a a') (hb : RA k b b') :
    Rel0 k (constrainEqual a b) (constrainEqual a' b') (fun _ _ => True) := by
  intro s t hs r s' hr
  simp only [constrainEqual, hs.wl, Bool.false_eq_true, if_false] at hr
  split at hr
  · rename_i c d hc hd
    simp only [Option.some.injEq, Prod.mk.injEq] at hr
    obtain ⟨-, rfl⟩ := hr
    cases k with
    | true =>
      simp only [constrainEqual, hs.wr, if_true, Option.some.injEq, Prod.mk.injEq]
      refine ⟨fun _ => by first | exact ⟨(), _, trivial, rfl⟩ | exact ⟨_, _, rfl, rfl⟩, ?_⟩
      rintro - t' ⟨-, rfl⟩
      exact ⟨⟨by first | exact rfl | exact hs.wl, by first | exact rfl | exact hs.wr, hs.typeId, hs.ctxId, hs.len, hs.advice, hs.zero, by simp, by simp, by simp,
        hs.lookups⟩, Frame.refl _, trivial⟩
    | false =>
      refine ⟨by simp, fun r' t' hr' => ?_⟩
      simp only [constrainEqual, hs.wr, Bool.false_eq_true, if_false, ← ha.2 rfl, ← hb.2 rfl, hc, hd,
        Option.some.injEq, Prod.mk.injEq] at hr'
      obtain ⟨-, rfl⟩ := hr'
      exact ⟨⟨by first | exact rfl | exact hs.wl, by first | exact rfl | exact hs.wr, hs.typeId, hs.ctxId, hs.len, hs.advice, hs.zero, hs.selector,
        fun _ => by simp [hs.eqs rfl], hs.consts, hs.lookups⟩, by simp [Frame], trivial⟩
  · simp at hr

theorem constrainEqual_lay {a b : AV p} : Lay (constrainEqual a b) := Lay.same (by
  intro s r s' h
  unfold constrainEqual at h
  split at h
  · simp only [Option.some.injEq, Prod.mk.injEq] at h; obtain ⟨-, rfl⟩ := h; exact ⟨rfl, rfl⟩
  · split at h
    · simp only [Option.some.injEq, Prod.mk.injEq] at h; obtain ⟨-, rfl⟩ := h; exact ⟨rfl, rfl⟩
    · simp at h)

theorem constrainEqual_rel {a b a' b' : AV p} (ha : RA k a a') (hb : RA k b b') :
    Rel k (constrainEqual a b) (constrainEqual a' b') (fun _ _ => True) l :=
  .of0 (constrainEqual_rel0 ha hb) fun _ _ => constrainEqual_lay

theorem assignRegion_rel {qs qs' : List (QCell p)} {gs gs' : List ℤ} (h : RQs k qs qs')
    (hg : k = false → gs = gs') (hl : k = true → l → GOk qs.length gs) :
    Rel k (assignRegion qs gs) (assignRegion qs' gs') (fun _ _ => True) l :=
  .of0 (assignRegion_rel0 h hg) fun hk h => assignRegion_lay (hl hk h)

theorem assignRegionLast_rel {qs qs' : List (QCell p)} {gs gs' : List ℤ} (h : RQs k qs qs')
    (hg : k = false → gs = gs') (hl : k = true → l → GOk qs.length gs) :
    Rel k (assignRegionLast qs gs) (assignRegionLast qs' gs') (RA k) l :=
  (assignRegion_rel h hg hl).bind fun _ _ _ => lastM_rel

theorem smartEqs_rel0 (row : ℕ) (eo : List (ℕ × ℕ)) (ex : List (Cell × ℕ)) :
    Rel0 false (smartEqs row eo ex : M p Unit) (smartEqs row eo ex) (fun _ _ => True) := by
  intro s t hs r s' hr
  simp only [smartEqs, Option.some.injEq, Prod.mk.injEq] at hr ⊢
  obtain ⟨-, rfl⟩ := hr
  refine ⟨by simp, ?_⟩
  rintro - t' ⟨-, rfl⟩
  exact ⟨⟨by first | exact rfl | exact hs.wl, by first | exact rfl | exact hs.wr, hs.typeId, hs.ctxId, hs.len, hs.advice, hs.zero, hs.selector,
    fun _ => by simp [hs.eqs rfl, hs.cellAt], hs.consts, hs.lookups⟩, by simp [Frame], trivial⟩

theorem assignRegionSmart_rel0 {qs qs' : List (QCell p)} (h : RQs k qs qs') (gs : List ℤ)
    (eo : List (ℕ × ℕ)) (ex : List (Cell × ℕ)) :
    Rel0 k (assignRegionSmart qs gs eo ex) (assignRegionSmart qs' gs eo ex) (fun _ _ => True) := by
  intro s t hs r s' hr
  have hr1 := hr
  simp only [assignRegionSmart, hs.wl, Bool.false_eq_true, if_false] at hr1
  cases k with
  | false =>
    refine ⟨by simp, fun r' t' hr' => ?_⟩
    simp only [assignRegionSmart, hs.wr, Bool.false_eq_true, if_false, ← hs.len] at hr'
    exact (((assignRegion_rel0 h fun _ => rfl).bind fun _ _ _ => smartEqs_rel0 s.advice.length eo ex)
      s t hs r s' hr1).2 r' t' hr'
  | true =>
    obtain ⟨u, s1, h1, h2⟩ := bind_some.1 hr1
    obtain ⟨e, q⟩ := assignRegion_rel0 (gs := gs) (gs' := gs) h (fun _ => rfl) s t hs u s1 h1
    have e2 : assignRegionSmart qs' gs eo ex t = assignRegion qs' gs t := by
      simp only [assignRegionSmart, hs.wr, if_true]
      rw [bind_apply]
      rcases assignRegion qs' gs t with _ | ⟨⟨⟩, y⟩ <;> rfl
    rw [e2]
    refine ⟨e, fun r' t' hr' => ?_⟩
    obtain ⟨a, b, -⟩ := q r' t' hr'
    simp only [smartEqs, Option.some.injEq, Prod.mk.injEq] at h2
    obtain ⟨-, rfl⟩ := h2
    exact ⟨⟨a.wl, a.wr, a.typeId, a.ctxId, a.len, a.advice, a.zero, by simp, by simp, by simp, a.lookups⟩,
      b, trivial⟩

theorem smartEqs_lay (row : ℕ) (eo : List (ℕ × ℕ)) (ex : List (Cell × ℕ)) : Lay (smartEqs row eo ex : M p Unit) :=
  Lay.same (by
    intro s r s' h
    simp only [smartEqs, Option.some.injEq, Prod.mk.injEq] at h
    obtain ⟨-, rfl⟩ := h
    exact ⟨rfl, rfl⟩)

theorem assignRegionSmart_lay {qs : List (QCell p)} {gs : List ℤ} {eo : List (ℕ × ℕ)} {ex : List (Cell × ℕ)}
    (h : GOk qs.length gs) : Lay (assignRegionSmart qs gs eo ex) := by
  intro s hw hs r s' hr
  simp only [assignRegionSmart, hw, Bool.false_eq_true, if_false] at hr
  obtain ⟨u, s1, h1, h2⟩ := bind_some.1 hr
  have h3 := assignRegion_lay h s hw hs u s1 h1
  simp only [smartEqs, Option.some.injEq, Prod.mk.injEq] at h2
  obtain ⟨-, rfl⟩ := h2
  exact h3.of_eq rfl rfl

theorem assignRegionSmart_rel {qs qs' : List (QCell p)} (h : RQs k qs qs') (gs : List ℤ)
    (eo : List (ℕ × ℕ)) (ex : List (Cell × ℕ)) (hl : k = true → l → GOk qs.length gs) :
    Rel k (assignRegionSmart qs gs eo ex) (assignRegionSmart qs' gs eo ex) (fun _ _ => True) l :=
  .of0 (assignRegionSmart_rel0 h gs eo ex) fun hk h => assignRegionSmart_lay (hl hk h)

theorem syncSelector_rel0 : Rel0 k (syncSelector : M p Unit) syncSelector (fun _ _ => True) := by
  intro s t hs r s' hr
  simp only [syncSelector, hs.wl, Bool.false_eq_true, if_false, Option.some.injEq, Prod.mk.injEq] at hr ⊢
  obtain ⟨-, rfl⟩ := hr
  rw [hs.wr]
  refine ⟨fun _ => by first | exact ⟨(), _, trivial, rfl⟩ | exact ⟨_, _, rfl, rfl⟩, ?_⟩
  rintro - t' ⟨-, rfl⟩
  cases k with
  | true => exact ⟨⟨by first | exact rfl | exact hs.wl, by first | exact rfl | exact hs.wr, hs.typeId, hs.ctxId, hs.len, hs.advice, hs.zero, by simp, by simp, by simp,
        hs.lookups⟩, Frame.refl _, trivial⟩
  | false => exact ⟨⟨by first | exact rfl | exact hs.wl, by first | exact rfl | exact hs.wr, hs.typeId, hs.ctxId, hs.len, hs.advice, hs.zero,
      fun _ => by simp [hs.selector rfl, hs.len], hs.eqs, hs.consts, hs.lookups⟩, by simp [Frame], trivial⟩

theorem loadCell_lay (q : QCell p) : Lay (do assignCell q; syncSelector; lastM : M p (AV p)) := by
  intro s hw hs r s' hr
  obtain ⟨u, s1, h1, hr⟩ := bind_some.1 hr
  obtain ⟨v, s2, h2, hr⟩ := bind_some.1 hr
  obtain ⟨a, b, c⟩ := assignCell_grow h1
  simp only [syncSelector, c, hw, Bool.false_eq_true, if_false, Option.some.injEq, Prod.mk.injEq] at h2
  obtain ⟨-, rfl⟩ := h2
  obtain ⟨o, s3, h3, h4⟩ := bind_some.1 hr
  simp only [last?, Option.some.injEq, Prod.mk.injEq] at h3
  obtain ⟨-, rfl⟩ := h3
  obtain ⟨-, rfl⟩ := unwrap_state h4
  exact hs.grow (by simp only [a]) (by simp only [b]; omega)

theorem loadCell_rel {q q' : QCell p} (h : RQ k q q') : Rel k (do assignCell q; syncSelector; lastM : M p (AV p))
    (do assignCell q'; syncSelector; lastM) (RA k) l :=
  .of0 ((assignCell_rel0 h).bind fun _ _ _ => syncSelector_rel0.bind fun _ _ _ => (lastM_rel (l := True)).to0)
    fun _ _ => loadCell_lay q

theorem loadWitness_rel {x y : ZMod p} (h : RV k x y) : Rel k (loadWitness x) (loadWitness y) (RA k) l :=
  loadCell_rel (q := .witness x) (q' := .witness y) h

theorem loadConstant_rel (c : ZMod p) : Rel k (loadConstant c) (loadConstant c) (RA k) l :=
  loadCell_rel (q := .constant c) (q' := .constant c) rfl

theorem loadConstants_rel (cs : List (ZMod p)) : Rel k (loadConstants cs) (loadConstants cs) (RAs k) l := by
  induction cs with
  | nil => exact Rel.pure .nil
  | cons c cs ih => exact (loadConstant_rel c).bind fun _ _ h => ih.bind fun _ _ h2 => Rel.pure (.cons h h2)

theorem setZero_rel0 {z z' : AV p} (h : RA k z z') : Rel0 k
    (fun s => some ((), { s with zeroCell := some z }) : M p Unit)
    (fun s => some ((), { s with zeroCell := some z' }) : M p Unit) (fun _ _ => True) := by
  intro s t hs r s' hr
  simp only [Option.some.injEq, Prod.mk.injEq] at hr ⊢
  obtain ⟨-, rfl⟩ := hr
  refine ⟨fun _ => by first | exact ⟨(), _, trivial, rfl⟩ | exact ⟨_, _, rfl, rfl⟩, ?_⟩
  rintro - t' ⟨-, rfl⟩
  exact ⟨⟨by first | exact rfl | exact hs.wl, by first | exact rfl | exact hs.wr, hs.typeId, hs.ctxId, hs.len, hs.advice, RO.some h, hs.selector, hs.eqs, hs.consts,
    hs.lookups⟩, Frame.refl _, trivial⟩

theorem loadZero_rel0 : Rel0 k (loadZero : M p _) loadZero (RA k) := by
  intro s t hs r s' hr
  have hz := hs.zero
  generalize e1 : s.zeroCell = z at hz
  generalize e2 : t.zeroCell = z' at hz
  cases hz with
  | some h =>
    simp only [loadZero, e1, e2, Option.some.injEq, Prod.mk.injEq] at hr ⊢
    obtain ⟨rfl, rfl⟩ := hr
    refine ⟨fun _ => by first | exact ⟨(), _, trivial, rfl⟩ | exact ⟨_, _, rfl, rfl⟩, ?_⟩
    rintro r' t' ⟨rfl, rfl⟩
    exact ⟨hs, Frame.refl _, h⟩
  | none =>
    have key := (loadConstant_rel (k := k) (l := True) (0 : ZMod p)).to0.bind fun _ _ h =>
      (setZero_rel0 h).bind fun _ _ _ => Rel0.pure h
    have := key s t hs r s' (by simpa only [loadZero, e1] using hr)
    simpa only [loadZero, e2] using this

theorem loadZero_lay : Lay (loadZero : M p _) := by
  intro s hw hs r s' hr
  unfold loadZero at hr
  split at hr
  · simp only [Option.some.injEq, Prod.mk.injEq] at hr
    obtain ⟨-, rfl⟩ := hr
    exact hs
  · obtain ⟨u, s1, h1, hr⟩ := bind_some.1 hr
    have h2 := loadCell_lay (.constant 0) s hw hs u s1 h1
    obtain ⟨v, s2, h3, hr⟩ := bind_some.1 hr
    simp only [Option.some.injEq, Prod.mk.injEq] at h3
    obtain ⟨-, rfl⟩ := h3
    simp only [pure_apply, Option.some.injEq, Prod.mk.injEq] at hr
    obtain ⟨-, rfl⟩ := hr
    exact h2.of_eq rfl rfl

theorem loadZero_rel : Rel k (loadZero : M p _) loadZero (RA k) l := .of0 loadZero_rel0 fun _ _ => loadZero_lay

theorem assertIsConst_rel0 {a b : AV p} (h : RA k a b) (c : ZMod p) :
    Rel0 k (assertIsConst a c) (assertIsConst b c) (fun _ _ => True) := by
  intro s t hs r s' hr
  simp only [assertIsConst, hs.wl, Bool.false_eq_true, if_false, Option.map_eq_some_iff,
    Prod.mk.injEq] at hr
  obtain ⟨x, hx, -, rfl⟩ := hr
  cases k with
  | true =>
    simp only [assertIsConst, hs.wr, if_true, Option.some.injEq, Prod.mk.injEq]
    refine ⟨fun _ => by first | exact ⟨(), _, trivial, rfl⟩ | exact ⟨_, _, rfl, rfl⟩, ?_⟩
    rintro - t' ⟨-, rfl⟩
    exact ⟨⟨by first | exact rfl | exact hs.wl, by first | exact rfl | exact hs.wr, hs.typeId, hs.ctxId, hs.len, hs.advice, hs.zero, by simp, by simp, by simp,
        hs.lookups⟩, Frame.refl _, trivial⟩
  | false =>
    refine ⟨by simp, fun r' t' hr' => ?_⟩
    simp only [assertIsConst, hs.wr, Bool.false_eq_true, if_false, ← h.2 rfl, hx, Option.map_some,
      Option.some.injEq, Prod.mk.injEq] at hr'
    obtain ⟨-, rfl⟩ := hr'
    exact ⟨⟨by first | exact rfl | exact hs.wl, by first | exact rfl | exact hs.wr, hs.typeId, hs.ctxId, hs.len, hs.advice, hs.zero, hs.selector, hs.eqs,
      fun _ => by simp [hs.consts rfl], hs.lookups⟩, by simp [Frame], trivial⟩

theorem addCellToLookup_rel0 {a b : AV p} (h : RA k a b) :
    Rel0 k (addCellToLookup a) (addCellToLookup b) (fun _ _ => True) := by
  intro s t hs r s' hr
  simp only [addCellToLookup, Option.some.injEq, Prod.mk.injEq] at hr ⊢
  obtain ⟨-, rfl⟩ := hr
  refine ⟨fun _ => by first | exact ⟨(), _, trivial, rfl⟩ | exact ⟨_, _, rfl, rfl⟩, ?_⟩
  rintro - t' ⟨-, rfl⟩
  exact ⟨⟨by first | exact rfl | exact hs.wl, by first | exact rfl | exact hs.wr, hs.typeId, hs.ctxId, hs.len, hs.advice, hs.zero, hs.selector, hs.eqs, hs.consts,
    List.rel_append hs.lookups (.cons h .nil)⟩, Frame.refl _, trivial⟩

theorem assertIsConst_rel {a b : AV p} (h : RA k a b) (c : ZMod p) :
    Rel k (assertIsConst a c) (assertIsConst b c) (fun _ _ => True) l :=
  .of0 (assertIsConst_rel0 h c) fun _ _ => Lay.same (by
    intro s r s' h
    unfold assertIsConst at h
    split at h
    · simp only [Option.some.injEq, Prod.mk.injEq] at h; obtain ⟨-, rfl⟩ := h; exact ⟨rfl, rfl⟩
    · obtain ⟨x, -, h⟩ := Option.map_eq_some_iff.1 h
      simp only [Prod.mk.injEq] at h; obtain ⟨-, rfl⟩ := h; exact ⟨rfl, rfl⟩)

theorem addCellToLookup_rel {a b : AV p} (h : RA k a b) :
    Rel k (addCellToLookup a) (addCellToLookup b) (fun _ _ => True) l :=
  .of0 (addCellToLookup_rel0 h) fun _ _ => Lay.same (by
    intro s r s' h
    simp only [addCellToLookup, Option.some.injEq, Prod.mk.injEq] at h
    obtain ⟨-, rfl⟩ := h; exact ⟨rfl, rfl⟩)

/-- Literal gate offsets fit literal regions. -/
macro "gok" : tactic => `(tactic| (intro _ _; simp only [List.length_cons, List.length_nil]; decide))

/-- Known relational lemmas; extended with `macro_rules` after each lemma. -/
syntax "rel_lem" : tactic
macro_rules | `(tactic| rel_lem) => `(tactic| with_reducible refine Rel.pure ?_)
macro_rules | `(tactic| rel_lem) => `(tactic| with_reducible refine unwrapA_rel ?_)
macro_rules | `(tactic| rel_lem) => `(tactic| with_reducible refine unwrapQ_rel ?_)
macro_rules | `(tactic| rel_lem) => `(tactic| with_reducible refine assignRegion_rel ?_ (fun _ => rfl) (by gok))
macro_rules | `(tactic| rel_lem) => `(tactic| with_reducible refine assignRegionLast_rel ?_ (fun _ => rfl) (by gok))
macro_rules | `(tactic| rel_lem) => `(tactic| with_reducible refine assignRegionSmart_rel ?_ _ _ _ (by gok))
macro_rules | `(tactic| rel_lem) => `(tactic| with_reducible exact getM_rel _)
macro_rules | `(tactic| rel_lem) => `(tactic| with_reducible exact lastM_rel)
macro_rules | `(tactic| rel_lem) => `(tactic| with_reducible exact loadZero_rel)
macro_rules | `(tactic| rel_lem) => `(tactic| with_reducible exact loadConstant_rel _)
macro_rules | `(tactic| rel_lem) => `(tactic| with_reducible exact loadConstants_rel _)
macro_rules | `(tactic| rel_lem) => `(tactic| with_reducible refine loadWitness_rel ?_)
macro_rules | `(tactic| rel_lem) => `(tactic| with_reducible refine constrainEqual_rel ?_ ?_)
macro_rules | `(tactic| rel_lem) => `(tactic| with_reducible refine assertIsConst_rel ?_ _)
macro_rules | `(tactic| rel_lem) => `(tactic| with_reducible refine addCellToLookup_rel ?_)
macro_rules | `(tactic| rel_lem) => `(tactic| with_reducible refine assertM_rel ?_)

/-- Side conditions of relational lemmas. -/
macro "rel_side" : tactic => `(tactic| repeat' first
  | assumption
  | exact trivial
  | exact rfl
  | exact List.Forall₂.nil
  | refine List.Forall₂.cons ?_ ?_
  | refine And.intro ?_ ?_
  | (change RV _ _ _; intro hk; subst hk; simp_all only [RV, forall_const]; done))

/-- Apply known lemmas through a straight-line program. -/
macro "rel" : tactic => `(tactic| (
  repeat (apply Rel.bind; (focus (first | assumption | rel_lem <;> rel_side)); (intro _ _ _))
  first | assumption | rel_lem <;> rel_side))

end H2
