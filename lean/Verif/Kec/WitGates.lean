import Verif.Kec.WitRound
import Verif.Kec.Quiet

/-!
# The gates and lookups of one round hold for the values of the witness
-/

set_option autoImplicit false
set_option linter.unusedSectionVars false
namespace H2.Kec
open H2.Sha (Z Z_append Z_gate Z_cond Z_gate1 Z_reqEq Z_reqZero Z_reqBool Z_flatMap ind_eq_zero ind notE selE sumE andE
  fromBytes reqEq reqZero reqBool gate cond)

/-- The values of the cells that are assigned in every round. -/
structure PreV (k : ℕ) (L : Layout) (W : Cell → ℕ) (s : List ℕ) (ab : AbsorbD) : Prop where
  st : L.s.map W = s
  frm : W L.absorbFrom = ab.frm
  data : W L.absorbData = ab.data
  result : W L.absorbResult = ab.result
  fat : L.absorbFat.map W = (splitV (ps3 k) 0 (ab.frm + ab.data)).map (·.2)
  res : L.absorbRes.map W = ((splitV (ps3 k) 0 (ab.frm + ab.data)).map (trV (· % 2))).map (·.2)
  packed : L.packed.map W = (splitV 8 0 ab.data).map (·.2)
  bytes : L.inputBytes.map W = ((splitV 8 0 ab.data).map trB).map (·.2)

/-- The values of the cells that are assigned in the rounds before the last one. -/
structure BodyV (k : ℕ) (L : Layout) (W : Cell → ℕ) (t : ℕ) (s : List ℕ) : Prop where
  c : ∀ i, i < 5 → (L.cParts.getD i []).map W = (cV k s i).map (·.2)
  bc : ∀ i, i < 5 → (L.bc.getD i []).map W = (bcV k s i).map (·.2)
  u : ∀ x, x < 25 → ∀ e ∈ (uV k L (thV k s) x).1, W e.1 = e.2
  w0 : ∀ x, x < 25 → (w0 k L x).map W = (rpV k L (thV k s) x).map (·.2)
  w2 : ∀ x, x < 25 → (w2 k L x).map W = (chiV k L (thV k s) (x / 5) (x % 5)).map (·.2)
  fat : L.iotaFat.map W = (iotaIn k L t (thV k s)).map (·.2)
  res : L.iotaRes.map W = (iotaV k L t (thV k s)).map (·.2)

/-- The values of the squeeze cells. -/
structure SqV (L : Layout) (W : Cell → ℕ) (w : ℕ) : Prop where
  frm : W L.squeezeFrom = w
  packed : L.squeezePacked.map W = (splitV 8 0 w).map (·.2)
  bytes : L.squeezeBytes.map W = ((splitV 8 0 w).map trB).map (·.2)

/-- The absorb data of a round. -/
structure AbOk (ab : AbsorbD) : Prop where
  frm : DW 1 ab.frm
  data : DW 1 ab.data
  result : ab.result = ab.frm ^^^ ab.data

attribute [local irreducible] layout numBits wordParts

/-! ### Lookups -/

/-- A lookup in row `o` of a round with the values `W`. -/
def lookN (k : ℕ) (W : Cell → ℕ) (o : ℕ) : Look → Prop
  | .trans t x y => (W (x, o), W (y, o)) ∈ table k t
  | .range4 x => ∃ e ∈ table k .norm4, e.1 = W (x, o)
  | .chi x y z w => ∃ e ∈ chiTable k, e.1 + (2 * W (x, o) + W (z, o)) = packL (List.replicate (ps5 k) 3) + W (y, o) ∧ e.2 = W (w, o)

theorem zip_tr {W : Cell → ℕ} {inp out : List Cell} {vs : List (ℕ × ℕ)} {f : ℕ × ℕ → ℕ × ℕ} (h1 : inp.map W = vs.map (·.2))
    (h2 : out.map W = (vs.map f).map (·.2)) {e : Cell × Cell} (he : e ∈ inp.zip out) : ∃ v ∈ vs, W e.1 = v.2 ∧ W e.2 = (f v).2 := by
  obtain ⟨i, hi, rfl⟩ := List.mem_iff_getElem.mp he
  rw [List.length_zip] at hi
  have hl1 : inp.length = vs.length := by simpa using congrArg List.length h1
  have hi1 : i < inp.length := by omega
  have hi2 : i < out.length := by omega
  have hi3 : i < vs.length := by omega
  refine ⟨vs[i], List.getElem_mem _, ?_, ?_⟩
  · have := congrArg (fun l : List ℕ => l[i]?) h1
    simpa [hi1, hi3] using this
  · have := congrArg (fun l : List ℕ => l[i]?) h2
    simpa [hi2, hi3] using this

section
variable {k h : ℕ} (hw : WitL k h) {W : Cell → ℕ} {s : List ℕ} {ab : AbsorbD} {t w : ℕ}
include hw

theorem cells_lt {c : Cell} (hc : c ∈ allCells k (layout k h)) : c.2 < h := ((maskOk_spec _ _ hw.mask).2 c hc).1
theorem cells_nodup : (allCells k (layout k h)).Nodup := (maskOk_spec _ _ hw.mask).1

theorem split_DP {B x ps rot : ℕ} (hx : DW B x) (hB : B < 8) (hp : PartsOk ps (wordParts ps rot false)) :
    ∀ e ∈ splitV ps rot x, DP B e ∧ e.1 ≤ ps := by
  intro e he
  rw [splitV_eq hx.lt] at he
  refine ⟨enc_DP hB hx.le e he, ?_⟩
  obtain ⟨q, hq, rfl⟩ := List.mem_map.mp he
  exact hp.len q hq

theorem ab_DW (hab : AbOk ab) : DW 2 (ab.frm + ab.data) := (hab.frm.add hab.data (by omega)).1

theorem pre3 (hp : PreV k (layout k h) W s ab) (hab : AbOk ab) :
    ∀ e ∈ (layout k h).absorbFat.zip (layout k h).absorbRes, (W e.1, W e.2) ∈ table k .norm3 := by
  intro e he
  obtain ⟨v, hv, e1, e2⟩ := zip_tr hp.fat hp.res he
  obtain ⟨d1, d2⟩ := split_DP hw (ab_DW hw hab) (by norm_num) hw.p3 v hv
  rw [e1, e2]
  exact norm_pair (by norm_num) (by norm_num) d1 d2 (le_trans d2 hw.l3)

theorem unpack_zip {inp out : List Cell} {x : ℕ} (hx : DW 1 x) (h1 : inp.map W = (splitV 8 0 x).map (·.2))
    (h2 : out.map W = ((splitV 8 0 x).map trB).map (·.2)) : ∀ e ∈ inp.zip out, (W e.1, W e.2) ∈ table k .unpack := by
  intro e he
  obtain ⟨v, hv, e1, e2⟩ := zip_tr h1 h2 he
  obtain ⟨d1, d2⟩ := split_DP hw hx (by norm_num) hw.p8 v hv
  rw [e1, e2]
  exact unpack_pair d1 d2

theorem table_zero (T : Tbl) : (0, 0) ∈ table k T := by
  cases T with
  | norm3 => exact norm_zero (by norm_num) (by norm_num)
  | norm4 => exact norm_zero (by norm_num) (by norm_num)
  | norm6 => exact norm_zero (by norm_num) (by norm_num)
  | unpack => exact unpack_zero

theorem body_pairs (hb : BodyV k (layout k h) W t s) (hs : SOk s) :
    (∀ e ∈ (layout k h).iotaFat.zip (layout k h).iotaRes, (W e.1, W e.2) ∈ table k .norm3) ∧
    (∀ e ∈ pairs k (layout k h) .norm6, (W e.1, W e.2) ∈ table k .norm6) ∧
    (∀ e ∈ pairs k (layout k h) .norm4, (W e.1, W e.2) ∈ table k .norm4) := by
  refine ⟨fun e he => ?_, fun e he => ?_, fun e he => ?_⟩
  · obtain ⟨v, hv, e1, e2⟩ := zip_tr hb.fat hb.res he
    obtain ⟨d1, d2⟩ := split_DP hw (iota_DW hw hs t).1 (by norm_num) hw.p3 v hv
    rw [e1, e2]
    exact norm_pair (by norm_num) (by norm_num) d1 d2 (le_trans d2 hw.l3)
  · obtain ⟨i, hi, he⟩ := List.mem_flatMap.mp he
    rw [List.mem_range] at hi
    obtain ⟨v, hv, e1, e2⟩ := zip_tr (hb.c i hi) (hb.bc i hi) he
    obtain ⟨d1, d2⟩ := split_DP hw (colSum_DW hw hs i) (by norm_num) hw.p6 v hv
    rw [e1, e2]
    exact norm_pair (by norm_num) (by norm_num) d1 d2 (le_trans d2 hw.l6)
  · obtain ⟨x, hx, he⟩ := List.mem_flatMap.mp he
    rw [List.mem_range] at hx
    obtain ⟨u1, u2⟩ := uV_spec hw hs hx
    have hdw := (thV_DW hw hs (i := x % 5) (j := x / 5) (by omega) (by omega)).2
    obtain ⟨_, _, _, i4⟩ := uniV_spec hdw (by norm_num) _ _ (hw.rho x hx).2.2.1
    obtain ⟨j1, _⟩ := i4 W (hb.u x hx)
    have h1 : (((layout k h).uparts.getD x []).map UPart.out).map W = (uV k (layout k h) (thV k s) x).2.map (·.2) := by
      rw [List.map_map]; exact j1
    have h2 : (w0 k (layout k h) x).map W = ((uV k (layout k h) (thV k s) x).2.map (trV (· % 2))).map (·.2) := hb.w0 x hx
    obtain ⟨v, hv, e1, e2⟩ := zip_tr h1 h2 he
    have hle : v.1 ≤ ps5 k := by
      have hm : v.1 ∈ (uV k (layout k h) (thV k s) x).2.map (·.1) := List.mem_map.mpr ⟨v, hv, rfl⟩
      rw [u1] at hm
      exact hw.tl _ hm
    rw [e1, e2]
    exact norm_pair (by norm_num) (by norm_num) (u2 v hv) (le_trans hle hw.n4) (le_trans hle hw.l5)

theorem body_halves (hb : BodyV k (layout k h) W t s) (hs : SOk s) : ∀ c ∈ halves (layout k h), ∃ e ∈ table k .norm4, e.1 = W c := by
  intro c hc
  obtain ⟨x, hx, hc⟩ := List.mem_flatMap.mp hc
  rw [List.mem_range] at hx
  have hdw := (thV_DW hw hs (i := x % 5) (j := x / 5) (by omega) (by omega)).2
  obtain ⟨_, _, _, i4⟩ := uniV_spec hdw (by norm_num) _ _ (hw.rho x hx).2.2.1
  obtain ⟨_, _, _, j4⟩ := i4 W (hb.u x hx)
  obtain ⟨q, hq, e⟩ := j4 c hc
  have hle : q.length ≤ ps5 k := (hw.rho x hx).1.len q (rotR_mem hq)
  have hd := DP_packL (B := 3) (by norm_num) (l := q.map (dig (sget (thV k s) (x % 5) (x / 5)))) (by
    intro d hd; obtain ⟨i, _, rfl⟩ := List.mem_map.mp hd; exact hdw.le i)
  rw [List.length_map] at hd
  rw [e]
  exact norm_fst (range := 4) (by norm_num) (by norm_num) hd (le_trans hle hw.n4) (le_trans hle hw.l5)

theorem body_os (hb : BodyV k (layout k h) W t s) {i j : ℕ} (hi : i < 5) (hj : j < 5) :
    (rpcWord (layout k h).rpc1 (nParts k) i j).map W = (osV k (layout k h) (thV k s) i j).map (·.2) := by
  have := hb.w0 (5 * i + (3 * j + i) % 5) (by omega)
  unfold w0 at this
  rw [show (5 * i + (3 * j + i) % 5) / 5 = i by omega, show (2 * ((5 * i + (3 * j + i) % 5) % 5) + 3 * i) % 5 = j by omega] at this
  exact this

theorem getD_of_map {cells : List Cell} {vs : List (ℕ × ℕ)} (hm : cells.map W = vs.map (·.2)) {idx : ℕ} (hi : idx < cells.length) :
    W (cells.getD idx (0, 0)) = (vs.getD idx (0, 0)).2 := by
  have hl : cells.length = vs.length := by simpa using congrArg List.length hm
  have h2 : idx < vs.length := by omega
  have := congrArg (fun l : List ℕ => l[idx]?) hm
  simpa [hi, h2, List.getD_eq_getElem?_getD] using this

theorem body_quads (hb : BodyV k (layout k h) W t s) (hs : SOk s) : ∀ e ∈ quads k (layout k h),
    ∃ v ∈ chiTable k, v.1 + (2 * W e.1 + W e.2.2.1) = packL (List.replicate (ps5 k) 3) + W e.2.1 ∧ v.2 = W e.2.2.2 := by
  intro e he
  obtain ⟨x, hx, he⟩ := List.mem_flatMap.mp he
  rw [List.mem_range] at hx
  obtain ⟨idx, hidx, rfl⟩ := List.mem_map.mp he
  rw [List.mem_range] at hidx
  have hlen : ∀ rpc i j, (rpcWord rpc (nParts k) i j).length = nParts k := fun rpc i j => by simp [rpcWord]
  have ea := getD_of_map hw (body_os hw hb (i := x / 5) (j := x % 5) (by omega) (by omega)) (idx := idx) (by rw [hlen]; exact hidx)
  have eb := getD_of_map hw (body_os hw hb (i := (x / 5 + 1) % 5) (j := x % 5) (by omega) (by omega)) (idx := idx) (by rw [hlen]; exact hidx)
  have ec := getD_of_map hw (body_os hw hb (i := (x / 5 + 2) % 5) (j := x % 5) (by omega) (by omega)) (idx := idx) (by rw [hlen]; exact hidx)
  have ed := getD_of_map hw (hb.w2 x hx) (idx := idx) (by unfold w2; rw [hlen]; exact hidx)
  obtain ⟨a1, a2, a3⟩ := osV_spec hw hs (i := x / 5) (j := x % 5) (by omega) idx
  obtain ⟨b1, b2, b3⟩ := osV_spec hw hs (i := (x / 5 + 1) % 5) (j := x % 5) (by omega) idx
  obtain ⟨c1, c2, c3⟩ := osV_spec hw hs (i := (x / 5 + 2) % 5) (j := x % 5) (by omega) idx
  obtain ⟨n1, n2, n3⟩ := chi_nat a2 b2 c2 a3 b3 c3
  refine ⟨_, chi_pair hw.l5 n2 fun j hj => ?_, ?_, ?_⟩
  · have := n3 j hj
    have := b3 j
    omega
  · show _ + (2 * W (List.getD _ idx (0, 0)) + W (List.getD _ idx (0, 0))) = _ + W (List.getD _ idx (0, 0))
    rw [ea, eb, ec]
    exact n1
  · show _ = W (List.getD _ idx (0, 0))
    rw [ed]
    unfold nParts at hidx
    simp [chiV, chiIn, List.getD_eq_getElem?_getD, hidx]

/-- All lookups of a round. -/
theorem looks_ok (hp : PreV k (layout k h) W s ab) (hab : AbOk ab) (hs : SOk s)
    (hb : BodyV k (layout k h) W t s ∨ ∀ c ∈ bodyCells k (layout k h), W c = 0)
    (hq : (SqV (layout k h) W w ∧ DW 1 w) ∨ ∀ c ∈ sqCells (layout k h), W c = 0)
    (hz : ∀ c, c ∉ allCells k (layout k h) → W c = 0) {l : Look} (hl : l ∈ (layout k h).looks) {o : ℕ} (ho : o < h) : lookN k W o l := by
  have hc := hw.looks l hl o ho
  have hout : ∀ c : Cell, (maskOf h (allCells k (layout k h)) 0).testBit (cellNo h c) = false → W c = 0 := fun c hc =>
    hz c fun hm => by rw [maskOf_mem _ _ hm] at hc; exact absurd hc (by simp)
  have zero_of : ∀ {inp out : List Cell} {T : Tbl}, (∀ c ∈ inp, W c = 0) → (∀ c ∈ out, W c = 0) → ∀ e ∈ inp.zip out, (W e.1, W e.2) ∈ table k T := by
    intro inp out T h1 h2 e he
    obtain ⟨m1, m2⟩ := List.of_mem_zip he
    rw [h1 _ m1, h2 _ m2]
    exact table_zero hw T
  -- all pairs
  have hpairs : ∀ T, ∀ e ∈ pairs k (layout k h) T, (W e.1, W e.2) ∈ table k T := by
    intro T e he
    rcases hb with hb | hb
    · obtain ⟨b1, b2, b3⟩ := body_pairs hw hb hs
      cases T with
      | norm3 =>
        rcases List.mem_append.mp he with he | he
        · exact pre3 hw hp hab e he
        · exact b1 e he
      | norm4 => exact b3 e he
      | norm6 => exact b2 e he
      | unpack =>
        rcases List.mem_append.mp he with he | he
        · exact unpack_zip hw hab.data hp.packed hp.bytes e he
        · rcases hq with ⟨hq, hd⟩ | hq
          · exact unpack_zip hw hd hq.packed hq.bytes e he
          · exact zero_of (fun c hc => hq c (by simp [sqCells, hc])) (fun c hc => hq c (by simp [sqCells, hc])) e he
    · cases T with
      | norm3 =>
        rcases List.mem_append.mp he with he | he
        · exact pre3 hw hp hab e he
        · exact zero_of (fun c hc => hb c (by simp [bodyCells, hc])) (fun c hc => hb c (by simp [bodyCells, hc])) e he
      | norm4 =>
        obtain ⟨x, hx, he⟩ := List.mem_flatMap.mp he
        refine zero_of (fun c hc => hb c ?_) (fun c hc => hb c ?_) e he
        · simp only [bodyCells, List.mem_append]
          left; left; left; left; right
          rw [List.mem_flatMap]
          refine ⟨x, hx, ?_⟩
          obtain ⟨u, hu, rfl⟩ := List.mem_map.mp hc
          rw [List.mem_flatMap]
          exact ⟨u, hu, by cases u <;> simp [UPart.out, UPart.cells]⟩
        · simp only [bodyCells, List.mem_append]
          left; left; left; right
          exact List.mem_flatMap.mpr ⟨x, hx, hc⟩
      | norm6 =>
        obtain ⟨i, hi, he⟩ := List.mem_flatMap.mp he
        refine zero_of (fun c hc => hb c ?_) (fun c hc => hb c ?_) e he
        · simp only [bodyCells, List.mem_append]
          left; left; left; left; left; left
          exact List.mem_flatMap.mpr ⟨i, hi, hc⟩
        · simp only [bodyCells, List.mem_append]
          left; left; left; left; left; right
          exact List.mem_flatMap.mpr ⟨i, hi, hc⟩
      | unpack =>
        rcases List.mem_append.mp he with he | he
        · exact unpack_zip hw hab.data hp.packed hp.bytes e he
        · rcases hq with ⟨hq, hd⟩ | hq
          · exact unpack_zip hw hd hq.packed hq.bytes e he
          · exact zero_of (fun c hc => hq c (by simp [sqCells, hc])) (fun c hc => hq c (by simp [sqCells, hc])) e he
  clear hz hp hab hq
  cases l with
  | trans T x y =>
    simp only [lookCheck, Bool.or_eq_true, Bool.and_eq_true, Bool.not_eq_true', List.contains_iff_mem] at hc
    show (W (x, o), W (y, o)) ∈ table k T
    rcases hc with hc | ⟨c1, c2⟩
    · exact hpairs T _ hc
    · rw [hout _ c1, hout _ c2]; exact table_zero hw T
  | range4 x =>
    simp only [lookCheck, Bool.or_eq_true, Bool.not_eq_true', List.contains_iff_mem] at hc
    show ∃ e ∈ table k .norm4, e.1 = W (x, o)
    rcases hc with hc | hc
    · rcases hb with hb | hb
      · exact body_halves hw hb hs _ hc
      · obtain ⟨y, hy, hm⟩ := List.mem_flatMap.mp hc
        rw [hb (x, o) (by
          simp only [bodyCells, List.mem_append]
          left; left; left; left; right
          rw [List.mem_flatMap]
          refine ⟨y, hy, ?_⟩
          obtain ⟨u, hu, hm⟩ := List.mem_flatMap.mp hm
          rw [List.mem_flatMap]
          refine ⟨u, hu, ?_⟩
          cases u with
          | same => simp [UPart.halves] at hm
          | two =>
            simp only [UPart.halves, UPart.cells, List.mem_cons, List.not_mem_nil, or_false] at hm ⊢
            tauto)]
        exact ⟨_, table_zero hw .norm4, rfl⟩
    · rw [hout _ hc]; exact ⟨_, table_zero hw .norm4, rfl⟩
  | chi x y z w' =>
    simp only [lookCheck, Bool.or_eq_true, Bool.and_eq_true, Bool.not_eq_true', List.contains_iff_mem] at hc
    show ∃ e ∈ chiTable k, e.1 + (2 * W (x, o) + W (z, o)) = packL (List.replicate (ps5 k) 3) + W (y, o) ∧ e.2 = W (w', o)
    have hzero : W (x, o) = 0 → W (y, o) = 0 → W (z, o) = 0 → W (w', o) = 0 →
        ∃ e ∈ chiTable k, e.1 + (2 * W (x, o) + W (z, o)) = packL (List.replicate (ps5 k) 3) + W (y, o) ∧ e.2 = W (w', o) := by
      intro h1 h2 h3 h4
      rw [h1, h2, h3, h4]
      exact ⟨_, chi_zero k, rfl, rfl⟩
    rcases hc with hc | ⟨⟨⟨c1, c2⟩, c3⟩, c4⟩
    · rcases hb with hb | hb
      · exact body_quads hw hb hs _ hc
      · obtain ⟨x', hx', hm⟩ := List.mem_flatMap.mp hc
        rw [List.mem_range] at hx'
        obtain ⟨idx, hidx, e⟩ := List.mem_map.mp hm
        rw [List.mem_range] at hidx
        have hlen : ∀ rpc i j, (rpcWord rpc (nParts k) i j).length = nParts k := fun rpc i j => by simp [rpcWord]
        have hmem : ∀ i j, i < 5 → j < 5 → W ((rpcWord (layout k h).rpc1 (nParts k) i j).getD idx (0, 0)) = 0 := by
          intro i j hi hj
          apply hb
          simp only [bodyCells, List.mem_append]
          left; left; left; right
          refine List.mem_flatMap.mpr ⟨5 * i + (3 * j + i) % 5, List.mem_range.mpr (by omega), ?_⟩
          unfold w0
          rw [show (5 * i + (3 * j + i) % 5) / 5 = i by omega, show (2 * ((5 * i + (3 * j + i) % 5) % 5) + 3 * i) % 5 = j by omega]
          rw [List.getD_eq_getElem _ _ (by rw [hlen]; exact hidx)]
          exact List.getElem_mem _
        have hmem2 : W ((w2 k (layout k h) x').getD idx (0, 0)) = 0 := by
          apply hb
          simp only [bodyCells, List.mem_append]
          left; left; right
          refine List.mem_flatMap.mpr ⟨x', List.mem_range.mpr hx', ?_⟩
          rw [List.getD_eq_getElem _ _ (by unfold w2; rw [hlen]; exact hidx)]
          exact List.getElem_mem _
        simp only [Prod.mk.injEq] at e
        obtain ⟨e1, e2, e3, e4⟩ := e
        refine hzero ?_ ?_ ?_ ?_
        · rw [← e1]; exact hmem _ _ (by omega) (by omega)
        · rw [← e2]; exact hmem _ _ (by omega) (by omega)
        · rw [← e3]; exact hmem _ _ (by omega) (by omega)
        · rw [← e4]; exact hmem2
    · exact hzero (hout _ c1) (hout _ c2) (hout _ c3) (hout _ c4)

end

/-- Lookups with the values in a field. -/
theorem lookOk_of {F : Type} [Field F] {k : ℕ} {W : Cell → ℕ} {a : Adv F} {r : ℤ} {o : ℕ} (hv : ∀ c, a.cell c r = ((W (c, o) : ℕ) : F)) {l : Look}
    (h : lookN k W o l) : lookOk k a r l := by
  cases l with
  | trans T x y => exact ⟨_, h, hv x, hv y⟩
  | range4 x =>
    obtain ⟨e, he, h1⟩ := h
    exact ⟨e, he, by rw [h1]; exact hv x⟩
  | chi x y z w =>
    obtain ⟨e, he, h1, h2⟩ := h
    refine ⟨e, he, ?_, by rw [h2]; exact hv w⟩
    rw [hv, hv, hv]
    have := congrArg (fun n : ℕ => (n : F)) h1
    push_cast at this
    push_cast
    linear_combination -this

end H2.Kec
