import Verif.Kec.Forge

/-!
# The gates depend only on the cells of the layout
-/

set_option autoImplicit false
set_option linter.unusedSectionVars false
namespace H2.Kec
open H2.Sha (Z Z_append Z_gate Z_cond Z_gate1 Z_reqEq Z_reqZero Z_reqBool Z_flatMap ind_eq_zero ind b2f bool_cases b2f_inj notE selE sumE andE
  fromBytes reqEq reqZero reqBool gate cond)

def upartCells : UPart → List Cell
  | .same _ c => [c]
  | .two _ a _ b c => [a, b, c]

/-- The cells of the layout, except the squeeze bytes. -/
def Layout.used (L : Layout) : List Cell :=
  (0, 0) :: L.absorbFrom :: L.absorbData :: L.absorbResult :: L.squeezeFrom ::
    ([L.s, L.absorbFat, L.absorbRes, L.packed, L.inputBytes, L.paddings, L.iotaFat, L.iotaRes, L.squeezePacked].flatten ++
      L.cParts.flatten ++ L.bc.flatten ++ L.rpc2.flatten ++ (L.uparts.flatMap fun us => us.flatMap upartCells))

theorem getD_mem {α : Type} (l : List α) (i : ℕ) (d : α) : l.getD i d = d ∨ l.getD i d ∈ l := by
  by_cases h : i < l.length
  · right; rw [List.getD_eq_getElem?_getD, List.getElem?_eq_getElem h]; exact List.getElem_mem _
  · left; rw [List.getD_eq_getElem?_getD, List.getElem?_eq_none (by omega)]; rfl

section
variable {F : Type} [Field F] {k h : ℕ} {L : Layout} {fx : ℤ → Fix F} {a a' : Adv F} {r : ℤ}

/-- The two assignments agree on the cells of the round that starts in row `r`. -/
def SameAt (L : Layout) (a a' : Adv F) (r : ℤ) : Prop := ∀ c ∈ L.used, a'.val r c = a.val r c

namespace SameAt
variable (hv : SameAt L a a' r)
include hv

theorem plain {l : List Cell} (hl : l ∈ [L.s, L.absorbFat, L.absorbRes, L.packed, L.inputBytes, L.paddings, L.iotaFat, L.iotaRes, L.squeezePacked])
    {c : Cell} (hc : c ∈ l) : a'.val r c = a.val r c :=
  hv c (by
    have : c ∈ [L.s, L.absorbFat, L.absorbRes, L.packed, L.inputBytes, L.paddings, L.iotaFat, L.iotaRes, L.squeezePacked].flatten :=
      List.mem_flatten.mpr ⟨l, hl, hc⟩
    unfold Layout.used
    simp only [List.mem_cons, List.mem_append]
    tauto)

theorem zero : a'.val r (0, 0) = a.val r (0, 0) := hv _ (by simp [Layout.used])

theorem plainD {l : List Cell} (hl : l ∈ [L.s, L.absorbFat, L.absorbRes, L.packed, L.inputBytes, L.paddings, L.iotaFat, L.iotaRes, L.squeezePacked])
    (i : ℕ) : a'.val r (l.getD i (0, 0)) = a.val r (l.getD i (0, 0)) := by
  rcases getD_mem l i (0, 0) with e | e
  · rw [e]; exact hv.zero
  · exact hv.plain hl e

theorem plainP {l : List Cell} (hl : l ∈ [L.s, L.absorbFat, L.absorbRes, L.packed, L.inputBytes, L.paddings, L.iotaFat, L.iotaRes, L.squeezePacked])
    (sz : List ℕ) : partsOf a' r sz l = partsOf a r sz l := by
  unfold partsOf
  rw [List.map_congr_left fun c hc => hv.plain hl hc]

theorem nest {ll : List (List Cell)} (hl : ∀ c ∈ ll.flatten, c ∈ L.used) (i : ℕ) : ∀ c ∈ ll.getD i [], a'.val r c = a.val r c := by
  intro c hc
  rcases getD_mem ll i [] with e | e
  · rw [e] at hc; exact absurd hc List.not_mem_nil
  · exact hv c (hl c (List.mem_flatten.mpr ⟨_, e, hc⟩))

theorem cPartsP (sz : List ℕ) (i : ℕ) : partsOf a' r sz (L.cParts.getD i []) = partsOf a r sz (L.cParts.getD i []) := by
  unfold partsOf
  rw [List.map_congr_left fun c hc => hv.nest (ll := L.cParts) (fun c hc => by simp only [Layout.used, List.mem_cons, List.mem_append]; tauto) i c hc]

theorem bcP (sz : List ℕ) (i : ℕ) : partsOf a' r sz (L.bc.getD i []) = partsOf a r sz (L.bc.getD i []) := by
  unfold partsOf
  rw [List.map_congr_left fun c hc => hv.nest (ll := L.bc) (fun c hc => by simp only [Layout.used, List.mem_cons, List.mem_append]; tauto) i c hc]

theorem rpc2D (q i : ℕ) : a'.val r ((L.rpc2.getD q []).getD i (0, 0)) = a.val r ((L.rpc2.getD q []).getD i (0, 0)) := by
  rcases getD_mem (L.rpc2.getD q []) i (0, 0) with e | e
  · rw [e]; exact hv.zero
  · exact hv.nest (ll := L.rpc2) (fun c hc => by simp only [Layout.used, List.mem_cons, List.mem_append]; tauto) q _ e

theorem sAt (i j : ℕ) : sAt L a' r i j = sAt L a r i j := hv.plainD (by simp) _
theorem padAt (i : ℕ) : padAt L a' r i = padAt L a r i := hv.plainD (by simp) _
theorem byteAt (i : ℕ) : byteAt L a' r i = byteAt L a r i := hv.plainD (by simp) _

theorem absorbFrom : a'.val r L.absorbFrom = a.val r L.absorbFrom := hv _ (by simp [Layout.used])
theorem absorbData : a'.val r L.absorbData = a.val r L.absorbData := hv _ (by simp [Layout.used])
theorem absorbResult : a'.val r L.absorbResult = a.val r L.absorbResult := hv _ (by simp [Layout.used])
theorem squeezeFrom : a'.val r L.squeezeFrom = a.val r L.squeezeFrom := hv _ (by simp [Layout.used])

theorem thetaT (i : ℕ) : thetaT k L a' r i = thetaT k L a r i := by simp only [Kec.thetaT, hv.bcP]
theorem chiOut (i j : ℕ) : chiOut k L a' r i j = chiOut k L a r i j := by
  unfold Kec.chiOut rpcWord
  simp only [List.map_map]
  rw [List.map_congr_left fun idx hidx => ?_]
  simp only [Function.comp, hv.rpc2D]
theorem roundOut (i j : ℕ) : roundOut k L a' r i j = roundOut k L a r i j := by
  unfold Kec.roundOut
  rw [hv.chiOut, hv.plainP (by simp)]

theorem upart {x : ℕ} : ∀ u ∈ L.uparts.getD x [], ∀ c ∈ upartCells u, a'.val r c = a.val r c := by
  intro u hu c hc
  rcases getD_mem L.uparts x [] with e | e
  · rw [e] at hu; exact absurd hu List.not_mem_nil
  · refine hv c ?_
    have : c ∈ L.uparts.flatMap fun us => us.flatMap upartCells :=
      List.mem_flatMap.mpr ⟨_, e, List.mem_flatMap.mpr ⟨u, hu, hc⟩⟩
    simp only [Layout.used, List.mem_cons, List.mem_append]; tauto

theorem splitUni (x rot ps : ℕ) (v : F) :
    splitUniGates (a'.val r) (L.uparts.getD x []) rot ps v = splitUniGates (a.val r) (L.uparts.getD x []) rot ps v := by
  unfold splitUniGates
  have h1 : (L.uparts.getD x []).flatMap (upartGate (a'.val r)) = (L.uparts.getD x []).flatMap (upartGate (a.val r)) := by
    refine List.flatMap_congr fun u hu => ?_
    have := hv.upart u hu
    cases u with
    | same => rfl
    | two na ca nb cb cc =>
      simp only [upartGate]
      rw [this ca (by simp [upartCells]), this cb (by simp [upartCells]), this cc (by simp [upartCells])]
  have h2 : ((L.uparts.getD x []).flatMap UPart.inputs).map (fun q => (q.1, a'.val r q.2)) =
      ((L.uparts.getD x []).flatMap UPart.inputs).map fun q => (q.1, a.val r q.2) := by
    refine List.map_congr_left fun q hq => ?_
    obtain ⟨u, hu, hq⟩ := List.mem_flatMap.mp hq
    have := hv.upart u hu
    rw [this q.2 ?_]
    cases u with
    | same n c => simp only [UPart.inputs, List.mem_singleton] at hq; subst hq; simp [upartCells]
    | two na ca nb cb cc =>
      simp only [UPart.inputs, List.mem_cons, List.not_mem_nil, or_false] at hq
      rcases hq with rfl | rfl <;> simp [upartCells]
  rw [h1, h2]

theorem gRound (hv' : SameAt L a a' (r + h)) : gRound k h L fx a' r = gRound k h L fx a r := by
  unfold Kec.gRound
  simp only [hv.plainP (l := L.absorbFat) (by simp), hv.plainP (l := L.absorbRes) (by simp), hv.plainP (l := L.packed) (by simp),
    hv.plainP (l := L.iotaFat) (by simp), hv.plainP (l := L.squeezePacked) (by simp), hv.cPartsP, hv.sAt, hv'.sAt, hv.thetaT, hv.chiOut, hv.roundOut, hv.splitUni,
    hv.absorbFrom, hv.absorbData, hv.absorbResult, hv.squeezeFrom]

theorem gWordValue (hw : a'.wordValue r = a.wordValue r) : gWordValue L fx a' r = gWordValue L fx a r := by
  unfold Kec.gWordValue
  simp only [hv.byteAt, hv.padAt, hw]

theorem gBytesLeft (hb : a'.bytesLeft r = a.bytesLeft r) (hb' : a'.bytesLeft (r + h) = a.bytesLeft (r + h)) (hf : a'.isFinal r = a.isFinal r) :
    gBytesLeft h L fx a' r = gBytesLeft h L fx a r := by
  unfold Kec.gBytesLeft
  have : Kec.padAt L a' r = Kec.padAt L a r := funext fun i => hv.padAt i
  simp only [this, hb, hb', hf, startNew]

theorem gPadding (hv' : SameAt L a a' (r - h)) : gPadding h L fx a' r = gPadding h L fx a r := by
  have hp : gPaddingAt h L fx a' r = gPaddingAt h L fx a r := by
    funext idx; simp only [gPaddingAt, hv.byteAt, hv.padAt, hv'.padAt]
  unfold Kec.gPadding
  simp only [hv.padAt, hp]

end SameAt

theorem gAbsorb_same (hv : SameAt L a a' r) (hs : ∀ d : ℕ, SameAt L a a' (r + ((d : ℕ) + 1) * h)) (hf : a'.isFinal r = a.isFinal r) :
    gAbsorb h L fx a' r = gAbsorb h L fx a r := by
  have h1 : SameAt L a a' (r + h) := by have := hs 0; simpa using this
  have hp : ∀ i j, gAbsorbAt h L fx a' r i j = gAbsorbAt h L fx a r i j := by
    intro i j
    have h2 := hs (i + j * 5)
    simp only [gAbsorbAt, hv.sAt, h1.sAt, h2.absorbFrom, h2.absorbResult, h2.absorbData, startNew, hf]
  unfold gAbsorb
  simp only [hp]

end

end H2.Kec
