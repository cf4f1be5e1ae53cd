import Verif.Ecc.RelPar
import Verif.Props.ModesEcc

/-!
# C72 for the parallel multi-scalar multiplications

These run on a pool of contexts: the main one and one for every task.
-/

set_option autoImplicit false
set_option linter.unusedSectionVars false
namespace H2
variable {p : ℕ} [Fact p.Prime]

/-! ## Specification -/

/-- Two keygen-mode pools describing the same circuit, thread by thread. -/
structure PoolSame (S T : Pool p) : Prop where
  left : S.wgo = false
  right : T.wgo = false
  phase : S.phase = T.phase
  typeId : S.typeId = T.typeId
  threads : List.Forall₂ SameShape S.threads T.threads

/-- A prover-mode pool holding the same witness, thread by thread, and no constraint. -/
structure PoolProver (S T : Pool p) : Prop where
  left : S.wgo = false
  right : T.wgo = true
  phase : S.phase = T.phase
  typeId : S.typeId = T.typeId
  threads : List.Forall₂ (fun s t : Ctx p => ProverOf s t ∧ t.selector = [] ∧ t.eqs = [] ∧ t.consts = []) S.threads T.threads

/-- Any two successful keygen runs from same-shape pools end in same-shape pools. -/
def PShapeIndep {α : Type} (R : α → α → Prop) (m m' : PM p α) : Prop :=
  ∀ S T, PoolSame S T → ∀ r S' r' T', m S = some (r, S') → m' T = some (r', T') → PoolSame S' T' ∧ R r r'

/-- Whenever the keygen-mode run of `m` succeeds, the prover-mode run of `m'` succeeds with the same witness. -/
def PProverMatches {α : Type} (f : α → α) (m m' : PM p α) : Prop :=
  ∀ S T, PoolProver S T → ∀ r S', m S = some (r, S') → ∃ T', m' T = some (f r, T') ∧ PoolProver S' T'

/-! ## Bridges -/

theorem PRel.shape {α : Type} {m m' : PM p α} {Q R : α → α → Prop} (h : PRel false m m' Q) (hq : ∀ r r', Q r r' → R r r') :
    PShapeIndep R m m' := by
  intro S T hs r S' r' T' h1 h2
  have h0 : PRS false S T := ⟨hs.left, hs.right, hs.phase, hs.typeId, hs.threads.imp fun _ _ h => h.rs, by intro h; simp at h⟩
  obtain ⟨a, b⟩ := (h S T h0 r S' h1).2 r' T' h2
  exact ⟨⟨a.wl, a.wr, a.phase, a.typeId, a.threads.imp fun _ _ h => h.sameShape⟩, hq _ _ b⟩

theorem forall₂_and_right {α β : Type} {R : α → β → Prop} {P : β → Prop} {l : List α} {l' : List β} (h : List.Forall₂ R l l')
    (hp : ∀ b ∈ l', P b) : List.Forall₂ (fun a b => R a b ∧ P b) l l' := by
  induction h with
  | nil => exact .nil
  | cons h _ ih => exact .cons ⟨h, hp _ (by simp)⟩ (ih fun b hb => hp b (by simp [hb]))

theorem forall₂_mem_right {α β : Type} {R : α → β → Prop} {P : β → Prop} {l : List α} {l' : List β} (h : List.Forall₂ R l l')
    (hp : ∀ a b, R a b → P b) : ∀ b ∈ l', P b := by
  induction h with
  | nil => simp
  | cons h _ ih =>
    intro b hb
    rcases List.mem_cons.1 hb with rfl | hb
    · exact hp _ _ h
    · exact ih b hb

theorem PRel.prover {α : Type} {m m' : PM p α} {Q : α → α → Prop} {f : α → α} (h : PRel true m m' Q)
    (hq : ∀ r r', Q r r' → r' = f r) : PProverMatches f m m' := by
  intro S T hs r S' h1
  have h0 : PRS true S T := ⟨hs.left, hs.right, hs.phase, hs.typeId, hs.threads.imp fun _ _ h => h.1.rs,
    fun _ => forall₂_mem_right hs.threads fun _ _ h => h.2⟩
  obtain ⟨e, f⟩ := h S T h0 r S' h1
  obtain ⟨-, r', T', h2⟩ := e rfl
  obtain ⟨a, b⟩ := f r' T' h2
  exact ⟨T', by rw [h2, hq _ _ b], a.wl, a.wr, a.phase, a.typeId,
    forall₂_and_right (a.threads.imp fun _ _ h => h.proverOf) (a.clean rfl)⟩

/-! ## The theorems -/

variable {F : FieldOps p} (M : Modes F)

/-- C72, shape of `variable_base_msm` (both strategies), Pippenger and `fixed_base_msm`: the circuit of every thread depends
on the numbers of points and scalar limbs and on the parameters only; not on the points, the scalars or the random points. -/
theorem C72_msm_par_shape {l l' : List (EcPt F)} {ss ss' : List (List (AV p))} (hl : List.Forall₂ M.samePt l l')
    (hss : List.Forall₂ AVs.Same ss ss') (C : NativeCurve F) (gs : List C.G) (b : F.V) (r r' : MsmRand F) (fr fr' : FbRand F)
    (m wd : ℕ) :
    PShapeIndep M.samePt (variableBaseMsm F b r l ss m wd) (variableBaseMsm F b r' l' ss' m wd) ∧
    PShapeIndep M.samePt (multiExpPar F b r l ss m wd) (multiExpPar F b r' l' ss' m wd) ∧
    PShapeIndep M.samePt (fixedMsmPar F C b fr gs ss m wd) (fixedMsmPar F C b fr' gs ss' m wd) := by
  have hl := (forall₂_iff M.ec0 _ _).2 hl
  have hss : List.Forall₂ (RAs false) ss ss' := (forall₂_iff (fun _ _ => ras_same) _ _).2 hss
  have rv20 : ∀ {α β : Type} (v v' : α × β), RV2 false v v' := fun v v' => ⟨by intro h; simp at h, by intro h; simp at h⟩
  have hr : RRand false r r' := ⟨rv20 _ _, rv20 _ _⟩
  have hf : RFb false fr fr' := ⟨rv20 _ _, rv20 _ _, rv20 _ _⟩
  have q : ∀ P P', REc M.r0 P P' → M.samePt P P' := fun _ _ h => (M.ec0 _ _).1 h
  exact ⟨(variableBaseMsm_rel M.r0 b hr hl hss m wd).shape q, (multiExpPar_rel M.r0 b hr hl hss m wd).shape q,
    (fixedMsmPar_rel M.r0 C b hf gs hss m wd).shape q⟩

/-- C72, prover mode of the multi-scalar multiplications: same witness in every thread. -/
theorem C72_msm_par_prover (l : List (EcPt F)) (ss : List (List (AV p))) (C : NativeCurve F) (gs : List C.G) (b : F.V)
    (r : MsmRand F) (fr : FbRand F) (m wd : ℕ) :
    PProverMatches M.provPt (variableBaseMsm F b r l ss m wd)
      (variableBaseMsm F b r (l.map M.provPt) (ss.map (List.map .prover)) m wd) ∧
    PProverMatches M.provPt (multiExpPar F b r l ss m wd) (multiExpPar F b r (l.map M.provPt) (ss.map (List.map .prover)) m wd) ∧
    PProverMatches M.provPt (fixedMsmPar F C b fr gs ss m wd) (fixedMsmPar F C b fr gs (ss.map (List.map .prover)) m wd) := by
  have hl := (forall₂_fun M.ec1 l _).2 rfl
  have hss : List.Forall₂ (RAs true) ss (ss.map (List.map .prover)) :=
    (forall₂_fun (fun a b => ⟨fun h => RAs.toProver h, by rintro rfl; exact ras_prover a⟩) ss _).2 rfl
  have rv21 : ∀ {α β : Type} (v : α × β), RV2 true v v := fun v => ⟨fun _ => rfl, fun _ => rfl⟩
  have hr : RRand true r r := ⟨rv21 _, rv21 _⟩
  have hf : RFb true fr fr := ⟨rv21 _, rv21 _, rv21 _⟩
  have q : ∀ P P', REc M.r1 P P' → P' = M.provPt P := fun _ _ h => (M.ec1 _ _).1 h
  exact ⟨(variableBaseMsm_rel M.r1 b hr hl hss m wd).prover q, (multiExpPar_rel M.r1 b hr hl hss m wd).prover q,
    (fixedMsmPar_rel M.r1 C b hf gs hss m wd).prover q⟩

/-- The hypotheses are met by new pools. -/
theorem C72_pools_meet : PoolSame (⟨false, 0, "", []⟩ : Pool p) ⟨false, 0, "", []⟩ ∧
    PoolProver (⟨false, 0, "", []⟩ : Pool p) ⟨true, 0, "", []⟩ :=
  ⟨⟨rfl, rfl, rfl, rfl, .nil⟩, ⟨rfl, rfl, rfl, rfl, .nil⟩⟩

end H2
