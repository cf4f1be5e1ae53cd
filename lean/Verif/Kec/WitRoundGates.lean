import Verif.Kec.WitGates

/-!
# The gate "round" holds for the values of the witness
-/

set_option autoImplicit false
set_option linter.unusedSectionVars false
namespace H2.Kec
open H2.Sha (Z Z_append Z_gate Z_cond Z_gate1 Z_reqEq Z_reqZero Z_reqBool Z_flatMap ind_eq_zero ind notE selE sumE andE
  fromBytes reqEq reqZero reqBool gate cond)

attribute [local irreducible] layout numBits wordParts

section
variable {F : Type} [Field F] {k h : ℕ} {a : Adv F} {r : ℤ} {W : Cell → ℕ}

theorem parts_cast {sz : List ℕ} {cells : List Cell} {vs : List (ℕ × ℕ)} (hv : ∀ c ∈ cells, a.val r c = ((W c : ℕ) : F))
    (h1 : cells.map W = vs.map (·.2)) (h2 : vs.map (·.1) = sz) : partsOf a r sz cells = vs.map fun q => (q.1, ((q.2 : ℕ) : F)) := by
  unfold partsOf
  rw [List.map_congr_left hv, show cells.map (fun c => ((W c : ℕ) : F)) = (cells.map W).map (fun x : ℕ => (x : F)) by rw [List.map_map]; rfl, h1, ← h2,
    List.map_map, List.zip_map']
  rfl

theorem decode_parts {sz : List ℕ} {cells : List Cell} {vs : List (ℕ × ℕ)} (hv : ∀ c ∈ cells, a.val r c = ((W c : ℕ) : F))
    (h1 : cells.map W = vs.map (·.2)) (h2 : vs.map (·.1) = sz) : decode (partsOf a r sz cells) = ((decN vs : ℕ) : F) := by
  rw [parts_cast hv h1 h2, decode_cast]

theorem splitV_sizes (ps rot x : ℕ) : (splitV ps rot x).map (·.1) = partSizes ps rot false := by
  unfold splitV partSizes; rw [List.map_map]; rfl

theorem splitV_tr_sizes (f : ℕ → ℕ) (ps rot x : ℕ) : ((splitV ps rot x).map (trV f)).map (·.1) = partSizes ps rot false := by
  rw [← splitV_sizes ps rot x, List.map_map]; exact List.map_congr_left fun e _ => trV_fst f e

variable (hw : WitL k h) (hv : ∀ c : Cell, c.2 < h → a.val r c = ((W c : ℕ) : F)) {s : List ℕ} {ab : AbsorbD} {t : ℕ}
include hw hv

theorem hv_all {c : Cell} (hc : c ∈ allCells k (layout k h)) : a.val r c = ((W c : ℕ) : F) := hv c (cells_lt hw hc)

theorem s_mem {q : ℕ} (hq : q < 25) : (layout k h).s.getD q (0, 0) ∈ (layout k h).s := by
  rw [List.getD_eq_getElem _ _ (by rw [hw.ls]; exact hq)]; exact List.getElem_mem _

theorem sAt_cast (hst : (layout k h).s.map W = s) {i j : ℕ} (hi : i < 5) (hj : j < 5) : sAt (layout k h) a r i j = ((sget s i j : ℕ) : F) := by
  unfold sAt
  have hq : 5 * i + j < 25 := by omega
  rw [hv_all hw hv (by simp only [allCells, preCells, List.mem_append]; left; left; left; left; left; left; left; left; exact s_mem hw hv hq)]
  congr 1
  unfold sget
  rw [← hst, List.getD_eq_getElem _ _ (by rw [hw.ls]; exact hq), List.getD_eq_getElem _ _ (by rw [List.length_map, hw.ls]; exact hq), List.getElem_map]

theorem absorb_gates (hp : PreV k (layout k h) W s ab) (hab : AbOk ab) :
    decode (partsOf a r (partSizes (ps3 k) 0 false) (layout k h).absorbFat) = a.val r (layout k h).absorbFrom + a.val r (layout k h).absorbData ∧
    decode (partsOf a r (partSizes (ps3 k) 0 false) (layout k h).absorbRes) = a.val r (layout k h).absorbResult ∧
    decode (partsOf a r (partSizes 8 0 false) (layout k h).packed) = a.val r (layout k h).absorbData := by
  have m1 : ∀ c ∈ (layout k h).absorbFat, a.val r c = ((W c : ℕ) : F) := fun c hc => hv_all hw hv (by simp [allCells, preCells, hc])
  have m2 : ∀ c ∈ (layout k h).absorbRes, a.val r c = ((W c : ℕ) : F) := fun c hc => hv_all hw hv (by simp [allCells, preCells, hc])
  have m3 : ∀ c ∈ (layout k h).packed, a.val r c = ((W c : ℕ) : F) := fun c hc => hv_all hw hv (by simp [allCells, preCells, hc])
  have e1 : a.val r (layout k h).absorbFrom = ((ab.frm : ℕ) : F) := by rw [← hp.frm]; exact hv_all hw hv (by simp [allCells, preCells])
  have e2 : a.val r (layout k h).absorbData = ((ab.data : ℕ) : F) := by rw [← hp.data]; exact hv_all hw hv (by simp [allCells, preCells])
  have e3 : a.val r (layout k h).absorbResult = ((ab.result : ℕ) : F) := by rw [← hp.result]; exact hv_all hw hv (by simp [allCells, preCells])
  have hd := ab_DW hw hab
  rw [e1, e2, e3]
  refine ⟨?_, ?_, ?_⟩
  · rw [decode_parts m1 hp.fat (splitV_sizes _ _ _), decN_split hd.lt hw.p3]; push_cast; rfl
  · rw [decode_parts m2 hp.res (splitV_tr_sizes _ _ _ _)]
    congr 1
    refine eq_of_dig fun j => ?_
    rw [decN_split_par hd.lt hw.l3 hw.p3, hab.result, dig_xor j (hab.frm.le j) (hab.data.le j), (hab.frm.add hab.data (by omega)).2 j]
  · rw [decode_parts m3 hp.packed (splitV_sizes _ _ _), decN_split hab.data.lt hw.p8]

theorem squeeze_gate {w : ℕ} (hq : (SqV (layout k h) W w ∧ DW 1 w) ∨ ∀ c ∈ sqCells (layout k h), W c = 0) :
    decode (partsOf a r (partSizes 8 0 false) (layout k h).squeezePacked) = a.val r (layout k h).squeezeFrom := by
  have m1 : ∀ c ∈ (layout k h).squeezePacked, a.val r c = ((W c : ℕ) : F) := fun c hc => hv_all hw hv (by simp [allCells, sqCells, hc])
  rw [hv_all hw hv (c := (layout k h).squeezeFrom) (by simp [allCells, sqCells])]
  rcases hq with ⟨hq, hd⟩ | hq
  · rw [decode_parts m1 hq.packed (splitV_sizes _ _ _), decN_split hd.lt hw.p8, hq.frm]
  · rw [decode_parts (vs := splitV 8 0 0) m1 ?_ (splitV_sizes _ _ _), decN_split (by positivity) hw.p8, hq _ (by simp [sqCells])]
    rw [List.map_congr_left (g := fun _ => 0) fun c hc => hq c (by simp [sqCells, hc])]
    have : ∀ e ∈ splitV 8 0 0, e.2 = 0 := by
      intro e he
      obtain ⟨d1, _⟩ := split_DP hw (DW_zero 0) (by norm_num) hw.p8 e he
      exact eq_of_dig fun j => by have := d1.le j; rw [dig_zero_left]; omega
    rw [List.map_congr_left this, List.map_const', List.map_const', hw.lsp]
    congr 1
    unfold splitV
    rw [List.length_map, hw.l8]

theorem c_gate (hst : (layout k h).s.map W = s) (hs : SOk s) (hb : BodyV k (layout k h) W t s) {i : ℕ} (hi : i < 5) :
    decode (partsOf a r (partSizes (ps6 k) 1 false) ((layout k h).cParts.getD i [])) =
      sAt (layout k h) a r i 0 + sAt (layout k h) a r i 1 + sAt (layout k h) a r i 2 + sAt (layout k h) a r i 3 + sAt (layout k h) a r i 4 := by
  have m1 : ∀ c ∈ (layout k h).cParts.getD i [], a.val r c = ((W c : ℕ) : F) := fun c hc => hv_all hw hv (by
    simp only [allCells, bodyCells, List.mem_append]
    left; right; left; left; left; left; left; left
    exact List.mem_flatMap.mpr ⟨i, List.mem_range.mpr hi, hc⟩)
  rw [decode_parts m1 (hb.c i hi) (splitV_sizes _ _ _)]
  unfold cV
  rw [decN_split (colSum_DW hw hs i).lt hw.p6, sAt_cast hw hv hst hi (by omega), sAt_cast hw hv hst hi (by omega), sAt_cast hw hv hst hi (by omega),
    sAt_cast hw hv hst hi (by omega), sAt_cast hw hv hst hi (by omega)]
  push_cast; rfl

theorem theta_gate (hb : BodyV k (layout k h) W t s) {i : ℕ} (hi : i < 5) : thetaT k (layout k h) a r i = ((tV k s i : ℕ) : F) := by
  have m1 : ∀ i, i < 5 → ∀ c ∈ (layout k h).bc.getD i [], a.val r c = ((W c : ℕ) : F) := fun i hi c hc => hv_all hw hv (by
    simp only [allCells, bodyCells, List.mem_append]
    left; right; left; left; left; left; left; right
    exact List.mem_flatMap.mpr ⟨i, List.mem_range.mpr hi, hc⟩)
  have e : ∀ i, i < 5 → partsOf a r (partSizes (ps6 k) 1 false) ((layout k h).bc.getD i []) = (bcV k s i).map fun q => (q.1, ((q.2 : ℕ) : F)) := fun i hi =>
    parts_cast (m1 i hi) (hb.bc i hi) (splitV_tr_sizes _ _ _ _)
  unfold thetaT tV
  simp only []
  rw [e _ (by omega), e _ (by omega), decode_cast, show rotParts ((bcV k s ((i + 1) % 5)).map fun q => (q.1, ((q.2 : ℕ) : F))) 1 (ps6 k) =
    (rotParts (bcV k s ((i + 1) % 5)) 1 (ps6 k)).map fun q => (q.1, ((q.2 : ℕ) : F)) from rotR_map _ _ _, decode_cast]
  push_cast; rfl

theorem rho_gate (hst : (layout k h).s.map W = s) (hs : SOk s) (hb : BodyV k (layout k h) W t s) {x : ℕ} (hx : x < 25) :
    Z (splitUniGates (a.val r) ((layout k h).uparts.getD x []) (rhoAt (x % 5) (x / 5)) (ps5 k)
      (sAt (layout k h) a r (x % 5) (x / 5) + thetaT k (layout k h) a r (x % 5))) := by
  have hmem : ∀ u ∈ (layout k h).uparts.getD x [], ∀ c ∈ u.cells, a.val r c = ((W c : ℕ) : F) := fun u hu c hc => hv_all hw hv (by
    simp only [allCells, bodyCells, List.mem_append]
    left; right; left; left; left; left; right
    exact List.mem_flatMap.mpr ⟨x, List.mem_range.mpr hx, List.mem_flatMap.mpr ⟨u, hu, hc⟩⟩)
  obtain ⟨hp, hrc, hu, _⟩ := hw.rho x hx
  obtain ⟨e0, hdw⟩ := thV_DW hw hs (i := x % 5) (j := x / 5) (by omega) (by omega)
  obtain ⟨_, _, _, i4⟩ := uniV_spec hdw (by norm_num) _ _ hu
  obtain ⟨_, j2, j3, _⟩ := i4 W (hb.u x hx)
  unfold splitUniGates
  rw [Z_append, Z_flatMap, Z_reqEq]
  constructor
  · intro u hu
    cases u with
    | same => simp [upartGate, Z]
    | two na ca nb cb cc =>
      have := j3 _ hu _ _ _ _ _ rfl
      simp only [upartGate, Z_reqEq]
      rw [hmem _ hu ca (by simp [UPart.cells]), hmem _ hu cb (by simp [UPart.cells]), hmem _ hu cc (by simp [UPart.cells]), ← this]
      push_cast; rfl
  · have hin : (((layout k h).uparts.getD x []).flatMap UPart.inputs).map (fun q => (q.1, a.val r q.2)) =
        (enc (rotParts (wordParts (ps5 k) (rhoAt (x % 5) (x / 5)) true) (rhoAt (x % 5) (x / 5)) (ps5 k)) (dig (sget (thV k s) (x % 5) (x / 5)))).map
          fun q => (q.1, ((q.2 : ℕ) : F)) := by
      rw [← j2, List.map_map]
      refine List.map_congr_left fun q hq => ?_
      obtain ⟨u, hu, hq⟩ := List.mem_flatMap.mp hq
      have : q.2 ∈ u.cells := by
        cases u with
        | same => simp only [UPart.inputs, List.mem_singleton] at hq; subst hq; simp [UPart.cells]
        | two =>
          simp only [UPart.inputs, List.mem_cons, List.not_mem_nil, or_false] at hq
          rcases hq with rfl | rfl <;> simp [UPart.cells]
      rw [hmem u hu _ this]; rfl
    rw [hin]
    have hrot : ∀ (l : List (ℕ × ℕ)) (g : ℕ × ℕ → ℕ × F), rotPartsRev (l.map g) (rhoAt (x % 5) (x / 5)) (ps5 k) =
        (rotPartsRev l (rhoAt (x % 5) (x / 5)) (ps5 k)).map g := fun l g => rotL_map _ _ _
    rw [hrot, decode_cast, ← rotParts_enc]
    have hcancel : rotPartsRev (rotParts (enc (wordParts (ps5 k) (rhoAt (x % 5) (x / 5)) true) (dig (sget (thV k s) (x % 5) (x / 5))))
        (rhoAt (x % 5) (x / 5)) (ps5 k)) (rhoAt (x % 5) (x / 5)) (ps5 k) = enc (wordParts (ps5 k) (rhoAt (x % 5) (x / 5)) true) (dig (sget (thV k s) (x % 5) (x / 5))) :=
      rotL_rotR _ (by rw [show (enc (wordParts (ps5 k) (rhoAt (x % 5) (x / 5)) true) (dig (sget (thV k s) (x % 5) (x / 5)))).length =
        (wordParts (ps5 k) (rhoAt (x % 5) (x / 5)) true).length by simp [enc]]; exact hrc)
    rw [hcancel, decN_enc, hp.flat, packL_dig hdw.lt, e0, sAt_cast hw hv hst (by omega) (by omega), theta_gate hw hv hb (by omega)]
    push_cast; rfl

theorem chi_cast (hb : BodyV k (layout k h) W t s) {i j : ℕ} (hi : i < 5) (hj : j < 5) :
    chiOut k (layout k h) a r i j = ((decN (chiV k (layout k h) (thV k s) i j) : ℕ) : F) := by
  have hx : 5 * i + j < 25 := by omega
  have hm := hb.w2 _ hx
  unfold w2 at hm
  rw [show (5 * i + j) / 5 = i by omega, show (5 * i + j) % 5 = j by omega] at hm
  have m1 : ∀ c ∈ rpcWord (layout k h).rpc2 (nParts k) i j, a.val r c = ((W c : ℕ) : F) := fun c hc => hv_all hw hv (by
    simp only [allCells, bodyCells, List.mem_append]
    left; right; left; left; right
    refine List.mem_flatMap.mpr ⟨5 * i + j, List.mem_range.mpr hx, ?_⟩
    unfold w2
    rw [show (5 * i + j) / 5 = i by omega, show (5 * i + j) % 5 = j by omega]
    exact hc)
  unfold chiOut
  rw [← decode_cast]
  show decode ((rpcWord (layout k h).rpc2 (nParts k) i j).map (fun c => (ps5 k, a.val r c))) = _
  congr 1
  have hfst : ∀ e ∈ chiV k (layout k h) (thV k s) i j, (fun q : ℕ × ℕ => (q.1, ((q.2 : ℕ) : F))) e = (fun q : ℕ × ℕ => (ps5 k, ((q.2 : ℕ) : F))) e := by
    intro e he
    unfold chiV chiIn at he
    rw [List.map_map] at he
    obtain ⟨idx, _, rfl⟩ := List.mem_map.mp he
    simp only [Function.comp, trV_fst]
  rw [List.map_congr_left hfst, List.map_congr_left fun c hc => by rw [m1 c hc]]
  rw [show (rpcWord (layout k h).rpc2 (nParts k) i j).map (fun c => (ps5 k, ((W c : ℕ) : F))) =
    ((rpcWord (layout k h).rpc2 (nParts k) i j).map W).map fun v : ℕ => (ps5 k, (v : F)) by rw [List.map_map]; rfl, hm, List.map_map]
  rfl

theorem iota_gate (hb : BodyV k (layout k h) W t s) (hs : SOk s) :
    decode (partsOf a r (partSizes (ps3 k) 0 false) (layout k h).iotaFat) =
      chiOut k (layout k h) a r 0 0 + ((packU64 (ROUND_CST.getD t 0) : ℕ) : F) := by
  have m1 : ∀ c ∈ (layout k h).iotaFat, a.val r c = ((W c : ℕ) : F) := fun c hc => hv_all hw hv (by simp [allCells, bodyCells, hc])
  rw [decode_parts m1 hb.fat (splitV_sizes _ _ _), chi_cast hw hv hb (by omega) (by omega)]
  unfold iotaIn
  rw [decN_split (iota_DW hw hs t).1.lt hw.p3]
  push_cast; rfl

theorem out_cast (hb : BodyV k (layout k h) W t s) {i j : ℕ} (hi : i < 5) (hj : j < 5) :
    roundOut k (layout k h) a r i j = ((sget (nextV k (layout k h) t s) i j : ℕ) : F) := by
  have m1 : ∀ c ∈ (layout k h).iotaRes, a.val r c = ((W c : ℕ) : F) := fun c hc => hv_all hw hv (by simp [allCells, bodyCells, hc])
  unfold roundOut nextV
  simp only []
  rw [sget_map hi hj]
  by_cases h0 : i = 0 ∧ j = 0
  · rw [if_pos h0, if_pos (by omega), decode_parts m1 hb.res (splitV_tr_sizes _ _ _ _)]
  · rw [if_neg h0, if_neg (by omega), chi_cast hw hv hb hi hj, show (5 * i + j) / 5 = i by omega, show (5 * i + j) % 5 = j by omega]

/-- The gate "round". -/
theorem gRound_ok {fx : ℤ → Fix F} {w : ℕ} (hp : PreV k (layout k h) W s ab) (hab : AbOk ab) (hs : SOk s) (hb : BodyV k (layout k h) W t s)
    (hq : (SqV (layout k h) W w ∧ DW 1 w) ∨ ∀ c ∈ sqCells (layout k h), W c = 0)
    (hrc : (fx r).roundCst = ((packU64 (ROUND_CST.getD t 0) : ℕ) : F))
    (hn : ∀ i, i < 5 → ∀ j, j < 5 → sAt (layout k h) a (r + h) i j = ((sget (nextV k (layout k h) t s) i j : ℕ) : F)) :
    Z (gRound k h (layout k h) fx a r) := by
  obtain ⟨a1, a2, a3⟩ := absorb_gates hw hv hp hab
  unfold gRound
  rw [Z_gate]
  right
  simp only [Z_append, Z_reqEq, Z_flatMap, List.mem_range]
  refine ⟨⟨⟨⟨⟨⟨⟨a1, a2⟩, a3⟩, fun i hi => c_gate hw hv hp.st hs hb hi⟩, fun x hx => rho_gate hw hv hp.st hs hb hx⟩, ?_⟩, fun i hi j hj => ?_⟩,
    squeeze_gate hw hv hq⟩
  · rw [hrc]; exact iota_gate hw hv hb hs
  · rw [out_cast hw hv hb hi hj, hn i hi j hj]

end
end H2.Kec
