import Mathlib.Data.List.GetD
import Verif.Kec.ForgeMsg

/-!
# The layout of the Keccak circuit for all large numbers of rows per round

`layoutC k N` is `layoutM k N` that fails when the cell manager wraps around to row 0.  If it succeeds, the layout is the same for all larger numbers
of rows per round.
-/

set_option autoImplicit false
set_option linter.unusedSectionVars false
namespace H2.Kec

/-- The cell manager with failure. -/
abbrev LC := StateT CM Option

/-- `queryAtRow`, in a row before the last. -/
def qRowC (row : ℕ) : LC Cell := fun cm => if row + 1 < cm.height then some (queryAtRow row cm) else none
@[inherit_doc qRowC]
def queryC : LC Cell := fun cm => qRowC cm.current cm
@[inherit_doc qRowC]
def startRegionC : LC ℕ := fun cm => some (startRegion cm)
/-- Fails when `b` does not hold. -/
def guardC (b : Prop) [Decidable b] : LC Unit := fun cm => if b then some ((), cm) else none
@[inherit_doc qRowC]
def queryNC : ℕ → LC (List Cell)
  | 0 => pure []
  | n + 1 => do
    let c ← queryC
    let cs ← queryNC n
    pure (c :: cs)
@[inherit_doc qRowC]
def queryRowsC : List ℕ → LC (List Cell)
  | [] => pure []
  | r :: rs => do
    let c ← qRowC r
    let cs ← queryRowsC rs
    pure (c :: cs)
@[inherit_doc qRowC]
def transformC (inp : List Cell) : LC (List Cell) := queryRowsC (inp.map (·.2))
@[inherit_doc qRowC]
def uniLoopC : List ℕ → List ℕ → List Cell → LC (List UPart)
  | s :: ss, t :: ts, c :: cs =>
    if s = t then do
      let r ← uniLoopC ss ts cs
      pure (.same t c :: r)
    else match ss with
      | [] => pure []
      | s' :: ss => do
        let a ← queryC
        let b ← queryC
        let r ← uniLoopC ss ts cs
        pure (.two s a s' b c :: r)
  | _, _, _ => pure []
@[inherit_doc qRowC]
def splitUniformC (out : List Cell) (rot ps : ℕ) : LC (List UPart) :=
  uniLoopC (rotParts (partSizes ps rot true) rot ps) (targetPartSizes ps) out
@[inherit_doc qRowC]
def rpcLoopC (N : ℕ) : ℕ → ℕ → LC (List (List Cell))
  | 0, _ => pure []
  | q + 1, row => do
    let cs ← queryRowsC (List.replicate 5 row)
    guardC (row + 1 < N)
    let r ← rpcLoopC N q (row + 1)
    pure (cs :: r)
@[inherit_doc qRowC]
def mapLC {α β : Type} (f : α → LC β) : List α → LC (List β)
  | [] => pure []
  | a :: l => do
    let b ← f a
    let bs ← mapLC f l
    pure (b :: bs)
@[inherit_doc qRowC]
def layoutC (k N : ℕ) : LC Layout := do
  let s ← queryNC 25
  let absorbFrom ← queryC
  let absorbData ← queryC
  let absorbResult ← queryC
  let _ ← startRegionC
  let absorbFat ← queryNC (partSizes (ps3 k) 0 false).length
  let _ ← startRegionC
  let absorbRes ← transformC absorbFat
  let _ ← startRegionC
  let packed ← queryNC (partSizes 8 0 false).length
  let _ ← startRegionC
  let inputBytes ← transformC packed
  let _ ← startRegionC
  let paddings ← queryNC inputBytes.length
  let _ ← startRegionC
  let cParts ← mapLC (fun _ => queryNC (partSizes (ps6 k) 1 false).length) (List.range 5)
  let _ ← startRegionC
  let bc ← mapLC transformC cParts
  let _ ← startRegionC
  let n := (targetPartSizes (ps5 k)).length
  let start0 ← startRegionC
  let rpc0 ← rpcLoopC N (5 * n) 0
  let start1 ← startRegionC
  let rpc1 ← rpcLoopC N (5 * n) 0
  let start2 ← startRegionC
  let rpc2 ← rpcLoopC N (5 * n) 0
  let piStart ← startRegionC
  let uparts ← mapLC (fun x : ℕ => splitUniformC (rpcWord rpc0 n (x / 5) ((2 * (x % 5) + 3 * (x / 5)) % 5)) (rhoAt (x % 5) (x / 5)) (ps5 k))
    (List.range 25)
  let piEnd ← startRegionC
  let _ ← startRegionC
  let iotaFat ← queryNC (partSizes (ps3 k) 0 false).length
  let _ ← startRegionC
  let iotaRes ← transformC iotaFat
  let _ ← startRegionC
  let squeezeFrom ← queryC
  let _ ← startRegionC
  let squeezePacked ← queryNC (partSizes 8 0 false).length
  let _ ← startRegionC
  let squeezeBytes ← transformC squeezePacked
  guardC (5 * n ≤ N)
  pure { s, absorbFrom, absorbData, absorbResult, absorbFat, absorbRes, packed, inputBytes, paddings, cParts, bc, rpc0, rpc1, rpc2,
         start0, start1, start2,
         numColumns := ((List.range (5 * n)).filter fun q => q % N == 0).length,
         piStart, piEnd, uparts, iotaFat, iotaRes, squeezeFrom, squeezePacked, squeezeBytes }


/-- The states of two cell managers with the same cells in the rows of the smaller one. -/
structure SameCM (h : ℕ) (cm cm' : CM) : Prop where
  hh : cm.height = h
  le : cm'.height ≤ h
  w : cm.width = cm'.width
  c : cm.current = cm'.current
  l : cm.rows.length = h
  l' : cm'.rows.length = cm'.height
  r : ∀ r < cm'.height, cm.rows.getD r 0 = cm'.rows.getD r 0

/-- If the run without wrapping succeeds, the run with `h` rows returns the same. -/
def Sim {α : Type} (h : ℕ) (m : LM α) (mc : LC α) : Prop :=
  ∀ cm cm', SameCM h cm cm' → ∀ x s, mc cm' = some (x, s) → (m cm).1 = x ∧ SameCM h (m cm).2 s

section
variable {α β : Type} {h N : ℕ}

theorem Sim.pure (x : α) : Sim h (pure x) (pure x) := by
  intro cm cm' hr y s hy
  obtain ⟨rfl, rfl⟩ := Prod.ext_iff.mp (Option.some_inj.mp hy)
  exact ⟨rfl, hr⟩

theorem Sim.bind {m : LM α} {mc : LC α} {f : α → LM β} {fc : α → LC β} (h1 : Sim h m mc) (h2 : ∀ x, Sim h (f x) (fc x)) : Sim h (m >>= f) (mc >>= fc) := by
  intro cm cm' hr y s hy
  have hy : (mc cm').bind (fun q => fc q.1 q.2) = some (y, s) := hy
  obtain ⟨q, hq, hq2⟩ := Option.bind_eq_some_iff.mp hy
  obtain ⟨e1, e2⟩ := h1 cm cm' hr q.1 q.2 hq
  have := h2 q.1 (m cm).2 q.2 e2 y s hq2
  show (f (m cm).1 (m cm).2).1 = y ∧ SameCM h (f (m cm).1 (m cm).2).2 s
  rw [e1]; exact this

theorem Sim.guard {m : LM β} {b : Prop} [Decidable b] {mc : LC β} (h1 : b → Sim h m mc) : Sim h m (guardC b >>= fun _ => mc) := by
  intro cm cm' hr y s hy
  have hy : (guardC b cm').bind (fun q => mc q.2) = some (y, s) := hy
  by_cases hb : b
  · have e : guardC b cm' = some ((), cm') := if_pos hb
    rw [e] at hy
    exact h1 hb cm cm' hr y s hy
  · have e : guardC b cm' = none := if_neg hb
    rw [e] at hy; exact absurd hy (by simp)

theorem getD_set (l : List ℕ) (i v : ℕ) {r : ℕ} (hr : r < l.length) : (l.set i v).getD r 0 = if i = r then v else l.getD r 0 := by
  rw [List.getD_eq_getElem _ _ (by rw [List.length_set]; exact hr), List.getD_eq_getElem _ _ hr, List.getElem_set]

theorem sim_qRow (row : ℕ) : Sim h (queryAtRow row) (qRowC row) := by
  intro cm cm' hr y s hy
  unfold qRowC at hy
  by_cases hlt : row + 1 < cm'.height
  · rw [if_pos hlt] at hy
    obtain ⟨rfl, rfl⟩ := Prod.ext_iff.mp (Option.some_inj.mp hy)
    have hle := hr.le
    have e := hr.r row (by omega)
    refine ⟨?_, ⟨hr.hh, hr.le, ?_, ?_, ?_, ?_, ?_⟩⟩
    · show (cm.rows.getD row 0, row) = (cm'.rows.getD row 0, row)
      rw [e]
    · show max cm.width (cm.rows.getD row 0 + 1) = max cm'.width (cm'.rows.getD row 0 + 1)
      rw [e, hr.w]
    · show (row + 1) % cm.height = (row + 1) % cm'.height
      rw [hr.hh, Nat.mod_eq_of_lt (by omega), Nat.mod_eq_of_lt hlt]
    · show (cm.rows.set row _).length = h
      rw [List.length_set, hr.l]
    · show (cm'.rows.set row _).length = cm'.height
      rw [List.length_set, hr.l']
    · intro r hrr
      have hrr : r < cm'.height := hrr
      have l1 := hr.l
      have l2 := hr.l'
      show (cm.rows.set row (cm.rows.getD row 0 + 1)).getD r 0 = (cm'.rows.set row (cm'.rows.getD row 0 + 1)).getD r 0
      rw [e, getD_set _ _ _ (by omega), getD_set _ _ _ (by omega), hr.r r hrr]
  · rw [if_neg hlt] at hy; exact absurd hy (by simp)

theorem sim_query : Sim h query queryC := by
  intro cm cm' hr y s hy
  have := sim_qRow cm'.current cm cm' hr y s hy
  show (queryAtRow cm.current cm).1 = y ∧ SameCM h (queryAtRow cm.current cm).2 s
  rw [hr.c]; exact this

theorem sim_start : Sim h startRegion startRegionC := by
  intro cm cm' hr y s hy
  obtain ⟨rfl, rfl⟩ := Prod.ext_iff.mp (Option.some_inj.mp hy)
  refine ⟨hr.w, hr.hh, hr.le, hr.w, hr.c, ?_, ?_, ?_⟩
  · show (List.replicate cm.height cm.width).length = h
    rw [List.length_replicate, hr.hh]
  · show (List.replicate cm'.height cm'.width).length = cm'.height
    rw [List.length_replicate]
  · intro r hrr
    have hrr : r < cm'.height := hrr
    have := hr.le
    show (List.replicate cm.height cm.width).getD r 0 = (List.replicate cm'.height cm'.width).getD r 0
    rw [List.getD_eq_getElem _ _ (by rw [List.length_replicate, hr.hh]; omega), List.getD_eq_getElem _ _ (by rw [List.length_replicate]; omega),
      List.getElem_replicate, List.getElem_replicate, hr.w]

theorem sim_queryN (n : ℕ) : Sim h (queryN n) (queryNC n) := by
  induction n with
  | zero => exact Sim.pure _
  | succ n ih => exact Sim.bind sim_query fun c => Sim.bind ih fun cs => Sim.pure _

theorem sim_queryRows (l : List ℕ) : Sim h (queryRows l) (queryRowsC l) := by
  induction l with
  | nil => exact Sim.pure _
  | cons r l ih => exact Sim.bind (sim_qRow r) fun c => Sim.bind ih fun cs => Sim.pure _

theorem sim_transform (l : List Cell) : Sim h (transformCells l) (transformC l) := sim_queryRows _

theorem sim_uni : ∀ (ss ts : List ℕ) (cs : List Cell), Sim h (uniLoop ss ts cs) (uniLoopC ss ts cs)
  | [], _, _ => by unfold uniLoop uniLoopC; exact Sim.pure _
  | _ :: _, [], _ => by unfold uniLoop uniLoopC; exact Sim.pure _
  | _ :: _, _ :: _, [] => by unfold uniLoop uniLoopC; exact Sim.pure _
  | s :: ss, t :: ts, c :: cs => by
    unfold uniLoop uniLoopC
    by_cases hs : s = t
    · rw [if_pos hs, if_pos hs]; exact Sim.bind (sim_uni ss ts cs) fun _ => Sim.pure _
    · rw [if_neg hs, if_neg hs]
      match ss with
      | [] => exact Sim.pure _
      | s' :: ss => exact Sim.bind sim_query fun _ => Sim.bind sim_query fun _ => Sim.bind (sim_uni ss ts cs) fun _ => Sim.pure _

theorem sim_rpc (hN : N ≤ h) (q row : ℕ) : Sim h (rpcLoop h q row) (rpcLoopC N q row) := by
  induction q generalizing row with
  | zero => exact Sim.pure _
  | succ q ih =>
    unfold rpcLoop rpcLoopC
    refine Sim.bind (sim_queryRows _) fun cs => Sim.guard fun hlt => ?_
    rw [Nat.mod_eq_of_lt (by omega)]
    exact Sim.bind (ih _) fun _ => Sim.pure _

theorem sim_mapL {f : α → LM β} {fc : α → LC β} (hf : ∀ a, Sim h (f a) (fc a)) (l : List α) : Sim h (mapL f l) (mapLC fc l) := by
  induction l with
  | nil => exact Sim.pure _
  | cons a l ih => exact Sim.bind (hf a) fun _ => Sim.bind ih fun _ => Sim.pure _

theorem sim_layout (hN : N ≤ h) (k : ℕ) : Sim h (layoutM k h) (layoutC k N) := by
  dsimp only [layoutM, layoutC]
  refine Sim.bind (sim_queryN _) fun _ => ?_
  refine Sim.bind sim_query fun _ => ?_
  refine Sim.bind sim_query fun _ => ?_
  refine Sim.bind sim_query fun _ => ?_
  refine Sim.bind sim_start fun _ => ?_
  refine Sim.bind (sim_queryN _) fun _ => ?_
  refine Sim.bind sim_start fun _ => ?_
  refine Sim.bind (sim_transform _) fun _ => ?_
  refine Sim.bind sim_start fun _ => ?_
  refine Sim.bind (sim_queryN _) fun _ => ?_
  refine Sim.bind sim_start fun _ => ?_
  refine Sim.bind (sim_transform _) fun _ => ?_
  refine Sim.bind sim_start fun _ => ?_
  refine Sim.bind (sim_queryN _) fun _ => ?_
  refine Sim.bind sim_start fun _ => ?_
  refine Sim.bind (sim_mapL (fun _ => sim_queryN _) _) fun _ => ?_
  refine Sim.bind sim_start fun _ => ?_
  refine Sim.bind (sim_mapL (fun _ => sim_transform _) _) fun _ => ?_
  refine Sim.bind sim_start fun _ => ?_
  refine Sim.bind sim_start fun _ => ?_
  refine Sim.bind (sim_rpc hN _ _) fun _ => ?_
  refine Sim.bind sim_start fun _ => ?_
  refine Sim.bind (sim_rpc hN _ _) fun _ => ?_
  refine Sim.bind sim_start fun _ => ?_
  refine Sim.bind (sim_rpc hN _ _) fun _ => ?_
  refine Sim.bind sim_start fun _ => ?_
  refine Sim.bind (sim_mapL (fun _ => sim_uni _ _ _) _) fun _ => ?_
  refine Sim.bind sim_start fun _ => ?_
  refine Sim.bind sim_start fun _ => ?_
  refine Sim.bind (sim_queryN _) fun _ => ?_
  refine Sim.bind sim_start fun _ => ?_
  refine Sim.bind (sim_transform _) fun _ => ?_
  refine Sim.bind sim_start fun _ => ?_
  refine Sim.bind sim_query fun _ => ?_
  refine Sim.bind sim_start fun _ => ?_
  refine Sim.bind (sim_queryN _) fun _ => ?_
  refine Sim.bind sim_start fun _ => ?_
  refine Sim.bind (sim_transform _) fun _ => ?_
  refine Sim.guard fun h5 => ?_
  have : ((List.range (5 * (targetPartSizes (ps5 k)).length)).filter fun q => q % h == 0) =
      (List.range (5 * (targetPartSizes (ps5 k)).length)).filter fun q => q % N == 0 := by
    refine List.filter_congr fun q hq => ?_
    have := List.mem_range.mp hq
    rw [Nat.mod_eq_of_lt (by omega), Nat.mod_eq_of_lt (by omega)]
  rw [this]
  exact Sim.pure _

/-- The layout is the same for all numbers of rows per round from `N` on. -/
theorem layout_large {k : ℕ} {L : Layout} (hL : ((layoutC k N) (CM.new N)).map Prod.fst = some L) (hN : N ≤ h) : layout k h = L := by
  obtain ⟨q, hq, rfl⟩ := Option.map_eq_some_iff.mp hL
  refine (sim_layout hN k (CM.new h) (CM.new N) ⟨rfl, hN, rfl, rfl, by simp [CM.new], by simp [CM.new], ?_⟩ q.1 q.2 hq).1
  intro r hr
  have hr : r < N := hr
  show (List.replicate h 0).getD r 0 = (List.replicate N 0).getD r 0
  rw [List.getD_eq_getElem _ _ (by rw [List.length_replicate]; omega), List.getD_eq_getElem _ _ (by rw [List.length_replicate]; omega),
      List.getElem_replicate, List.getElem_replicate]

end

theorem layout_eq {k N h : ℕ} (hs : ((layoutC k N) (CM.new N)).isSome = true) (hN : N ≤ h) : layout k h = layout k N := by
  obtain ⟨q, hq⟩ := Option.isSome_iff_exists.mp hs
  have e : ((layoutC k N) (CM.new N)).map Prod.fst = some q.1 := by rw [hq]; rfl
  rw [layout_large e hN, layout_large e le_rfl]

/-- `inFree` and `sqFree` for `N` rows hold for more rows. -/
theorem inFree_mono {L : Layout} {N h x : ℕ} (hN : N ≤ h) (hf : inFree N L x = true) : inFree h L x = true := by
  unfold inFree at hf ⊢
  simp only [Bool.and_eq_true, decide_eq_true_eq, beq_iff_eq, List.all_eq_true, bne_iff_ne, List.mem_range, Bool.or_eq_true, Bool.not_eq_true',
    List.contains_eq_mem, decide_eq_false_iff_not] at hf ⊢
  obtain ⟨⟨⟨⟨⟨⟨a1, a2⟩, a3⟩, a4⟩, a5⟩, a6⟩, a7⟩ := hf
  exact ⟨⟨⟨⟨⟨⟨by omega, a2⟩, by omega⟩, fun d hd => ⟨(a4 d hd).1, by have := (a4 d hd).2; omega⟩⟩, fun d hd => ⟨(a5 d hd).1, by have := (a5 d hd).2; omega⟩⟩,
    fun y hy => ⟨by have := (a6 y hy).1; omega, (a6 y hy).2⟩⟩, a7⟩

@[inherit_doc inFree_mono]
theorem sqFree_mono {L : Layout} {N h x : ℕ} (hN : N ≤ h) (hf : sqFree N L x = true) : sqFree h L x = true := by
  unfold sqFree at hf ⊢
  simp only [Bool.and_eq_true, decide_eq_true_eq, beq_iff_eq, List.all_eq_true, bne_iff_ne, List.mem_range, Bool.or_eq_true, Bool.not_eq_true',
    List.contains_eq_mem, decide_eq_false_iff_not] at hf ⊢
  obtain ⟨⟨⟨⟨⟨⟨a1, a2⟩, a3⟩, a4⟩, a5⟩, a6⟩, a7⟩ := hf
  exact ⟨⟨⟨⟨⟨⟨by omega, a2⟩, a3⟩, by omega⟩, fun d hd => ⟨(a5 d hd).1, by have := (a5 d hd).2; omega⟩⟩,
    fun y hy => ⟨by have := (a6 y hy).1; omega, (a6 y hy).2⟩⟩, a7⟩

end H2.Kec
