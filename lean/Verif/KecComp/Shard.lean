import Verif.KecComp.VarLen
import Verif.Props.Kec

/-!
# The base circuit of the shard circuit
-/

set_option autoImplicit false
set_option linter.unusedSectionVars false
namespace H2.KC
open H2.Kec
variable {p : ℕ} [Fact p.Prime] {tbl : ZMod p → Prop} {ext : Cell → ZMod p} {s s' : Ctx p} {w : Cell → ZMod p} {L : ℕ}

/-- The values of the loaded cells. -/
def valF (w : Cell → ZMod p) (f : LoadedF (AV p)) : LoadedF (ZMod p) :=
  ⟨at' w f.bytesLeft, f.words.map (at' w), at' w f.isFinal, at' w f.hashLo, at' w f.hashHi⟩
/-- The values of a row. -/
def valR (w : Cell → ZMod p) (r : Row (AV p)) : Row (ZMod p) := ⟨at' w r.key, at' w r.lo, at' w r.hi⟩

/-- The packed elements of a keccak_f. -/
def vPackF (W : ℕ) (last : ZMod p) (f : LoadedF (ZMod p)) : List (ZMod p) := padEven 0 (vPack W (f.bytesLeft * last :: f.words))

/-- The chunk inputs. -/
def vChunks (W : ℕ) : ZMod p → List (LoadedF (ZMod p)) → List (List (List (ZMod p)) × Bool)
  | _, [] => []
  | last, f :: fs => (chunksOf 2 (vPackF W last f), decide (f.isFinal = 1)) :: vChunks W f.isFinal fs

/-- The rows of the table. -/
def vTable (f : List (ZMod p) → List (ZMod p)) (W : ℕ) (dummy : Row (ZMod p)) : ZMod p → List (ZMod p) → List (LoadedF (ZMod p)) → List (Row (ZMod p))
  | _, _, [] => []
  | last, acc, v :: vs =>
    (if v.isFinal = 1 then ⟨spongeHash f 2 (acc ++ vPackF W last v), v.hashLo, v.hashHi⟩ else dummy) ::
      vTable f W dummy v.isFinal (if v.isFinal = 1 then [] else acc ++ vPackF W last v) vs

theorem vPack_length {W : ℕ} (hW : 1 ≤ W) (ws : List (ZMod p)) : (vPack W ws).length = ceilDiv ws.length W := by
  rw [vPack, List.length_map, chunksOf_length' hW]

/-- `resize` to `RATE * num_poseidon_absorb_per_keccak_f` fills up to an even number. -/
theorem resize_eq {α : Type} (hW : 1 ≤ wpw p) {l : List α} (z : α) (hl : l.length = ceilDiv 18 (wpw p)) :
    (padTo (2 * absorbsPerF p) z l).take (2 * absorbsPerF p) = padEven z l := by
  have hw : ceilDiv 18 (wpw p) = 17 / wpw p + 1 := by
    unfold ceilDiv
    rw [show 18 + wpw p - 1 = 17 + wpw p by omega, Nat.add_div_right _ hW]
  have ha : 2 * absorbsPerF p = (l.length + 1) / 2 * 2 := by
    unfold absorbsPerF witPerF
    rw [hl, hw]; generalize 17 / wpw p = q; omega
  have hle : l.length ≤ 2 * absorbsPerF p := by omega
  rw [List.take_of_length_le (padTo_length hle).le]
  unfold padTo padEven
  split
  · rw [show 2 * absorbsPerF p - l.length = 0 by omega]; simp
  · rw [show 2 * absorbsPerF p - l.length = 1 by omega]; rfl

theorem chunks2_len {α : Type} (z : α) (l : List α) : ∀ c ∈ chunksOf 2 (padEven z l), c.length = 2 := by
  have key : ∀ (f : ℕ) (l : List α), l.length ≤ f → l.length % 2 = 0 → ∀ c ∈ chunksOf 2 l, c.length = 2 := by
    intro f
    induction f with
    | zero =>
      intro l hl _ c hc
      have : l = [] := by simpa using hl
      subst this; simp [chunksOf_nil] at hc
    | succ f ih =>
      intro l hl he c hc
      cases l with
      | nil => simp [chunksOf_nil] at hc
      | cons x l =>
        cases l with
        | nil => simp at he
        | cons y l =>
          rw [chunksOf_cons (by norm_num) (by simp)] at hc
          rcases List.mem_cons.mp hc with rfl | hc
          · rfl
          · exact ih l (by simp at hl; omega) (by simp at he; omega) c hc
  refine key _ _ le_rfl ?_
  rw [padEven_length]; omega

theorem ipResized_ret (ms : List (ZMod p)) (W : ℕ) (z : AV p) (cs : List (List (AV p))) : Ret (ipResized ms W z cs) (fun r => r.length = cs.length) := by
  induction cs with
  | nil => exact Ret.pure rfl
  | cons c cs ih => exact Ret.bind (Ret.any _) fun _ _ => Ret.bind ih fun rs h => Ret.pure (by simp [h])

theorem ipResized_sound {W : ℕ} (hW : 1 ≤ W) (z : AV p) (cs : List (List (AV p))) (hc : ∀ c ∈ cs, c.length ≤ W) :
    Sound tbl (ipResized (multipliers (2 ^ 64 : ZMod p) W) W z cs) (fun w rs => at' w z = 0 →
      rs.map (at' w) = (cs.map (List.map (at' w))).map (horn (2 ^ 64))) := by
  induction cs with
  | nil => exact fun s => Snd.pure fun _ _ _ => rfl
  | cons c cs ih =>
    intro s
    have hpl : (padTo W z c).length = W := padTo_length (hc c (by simp))
    refine Snd.bind (ip_sound (by intro h; rw [h] at hpl; simp at hpl; omega) (by rw [hpl, multipliers_length _ hW]) s) fun r s1 _ => ?_
    refine Snd.bind (ih (fun c h => hc c (by simp [h])) s1) fun rs s2 _ => Snd.pure ?_
    intro w _ h1 h2 hz
    rw [List.map_cons, h2, List.map_cons, List.map_cons, h1 hz, dot_multipliers _ (by rw [List.length_map, hpl])]
    congr 1
    rw [padTo_map, hz, padTo, horn_pad]

theorem ipResized_cmp {W : ℕ} (hW : 1 ≤ W) {z : AV p} {cs : List (List (AV p))} {us : List (List (ZMod p))} (hz : Con ext s z 0)
    (h : List.Forall₂ (AvsCon ext s) cs us) (hc : ∀ c ∈ cs, c.length ≤ W) :
    Cmp tbl ext s (ipResized (multipliers (2 ^ 64 : ZMod p) W) W z cs) (fun rs s' => AvsCon ext s' rs (us.map (horn (2 ^ 64)))) := by
  induction cs generalizing s us with
  | nil => cases h; exact Cmp.pure .nil
  | cons c cs ih =>
    rcases h with _ | @⟨_, v, _, vs, h1, h2⟩
    have hpl : (padTo W z c).length = W := padTo_length (hc c (by simp))
    refine Cmp.bind (ip_cmp (padTo_forall₂ W hz h1) (by intro h; rw [h] at hpl; simp at hpl; omega) (by rw [hpl, multipliers_length _ hW])) fun r s1 e hr => ?_
    refine Cmp.bind (ih (s := s1) (hz.mono e) (h2.imp fun _ _ h => AvsCon.mono h e) fun c h => hc c (by simp [h])) fun rs s2 e2 hrs => Cmp.pure ?_
    refine .cons ?_ hrs
    have hvl : v.length ≤ W := by rw [← List.Forall₂.length_eq h1]; exact hc c (by simp)
    rw [dot_multipliers _ (by rw [padTo_length hvl]), padTo, horn_pad] at hr
    exact hr.mono e2

theorem packLoop_ret (hW : 1 ≤ wpw p) (one zero : AV p) (fs : List (LoadedF (AV p))) (hf : ∀ f ∈ fs, f.words.length = 17) (last : AV p) :
    Ret (packLoop one zero last fs) (fun r => r.map (·.isFinal) = fs.map (·.isFinal) ∧ ∀ c ∈ r, ∀ i ∈ c.inputs, i.length = 2) := by
  induction fs generalizing last with
  | nil => exact Ret.pure ⟨rfl, by simp⟩
  | cons f fs ih =>
    refine Ret.bind (Ret.any _) fun len _ => Ret.bind (ipResized_ret _ _ _ _) fun d hd => Ret.bind (ih (fun f h => hf f (by simp [h])) _) fun rs hr => Ret.pure ⟨?_, ?_⟩
    · simp [hr.1]
    · intro c hc i hi
      rcases List.mem_cons.mp hc with rfl | hc
      · rw [chunksOf_length' hW, List.length_cons, hf f (by simp)] at hd
        rw [resize_eq hW zero hd] at hi
        exact chunks2_len _ _ i hi
      · exact hr.2 c hc i hi

theorem packLoop_sound (hW : 1 ≤ wpw p) (one zero : AV p) (fs : List (LoadedF (AV p))) (hf : ∀ f ∈ fs, f.words.length = 17) (last : AV p) :
    Sound tbl (packLoop one zero last fs) (fun w rs => at' w zero = 0 →
      rs.map (ChunkInput.val w) = vChunks (wpw p) (at' w last) (fs.map (valF w))) := by
  induction fs generalizing last with
  | nil => exact fun s => Snd.pure fun _ _ _ => rfl
  | cons f fs ih =>
    intro s
    refine Snd.bind (mul_sound _ _ s) fun len s1 _ => ?_
    refine Snd.bindR (ipResized_sound hW zero _ (fun c hc => (chunks_ne hW _ c hc).2) s1) (ipResized_ret _ _ _ _) fun d s2 _ hd => ?_
    rw [chunksOf_length' hW, List.length_cons, hf f (by simp)] at hd
    refine Snd.bind (ih (fun f h => hf f (by simp [h])) f.isFinal s2) fun rs s3 _ => Snd.pure ?_
    rintro w _ h3 h2 ⟨x, y, hx, hy, h1⟩ hz
    simp only [QOk] at hx hy
    subst hx hy
    rw [List.map_cons, h3 hz, List.map_cons, vChunks]
    congr 1
    simp only [ChunkInput.val]
    congr 1
    show List.map (List.map (at' w)) (chunksOf 2 ((padTo (2 * absorbsPerF p) zero d).take (2 * absorbsPerF p))) = _
    rw [resize_eq hW zero hd, ← chunksOf_map, padEven_map, hz, h2 hz, ← chunksOf_map, List.map_cons, h1]
    rfl

/-- The loaded cells hold the given values. -/
structure FCon (ext : Cell → ZMod p) (s : Ctx p) (f : LoadedF (AV p)) (v : LoadedF (ZMod p)) : Prop where
  bl : Con ext s f.bytesLeft v.bytesLeft
  ws : AvsCon ext s f.words v.words
  fin : Con ext s f.isFinal v.isFinal
  lo : Con ext s f.hashLo v.hashLo
  hi : Con ext s f.hashHi v.hashHi

theorem FCon.mono {f : LoadedF (AV p)} {v : LoadedF (ZMod p)} (h : FCon ext s f v) (e : Ext s s') : FCon ext s' f v :=
  ⟨h.bl.mono e, AvsCon.mono h.ws e, h.fin.mono e, h.lo.mono e, h.hi.mono e⟩

theorem padEven_forall₂ {α β : Type} {R : α → β → Prop} {z : α} {z' : β} (hz : R z z') {l : List α} {l' : List β} (h : List.Forall₂ R l l') :
    List.Forall₂ R (padEven z l) (padEven z' l') := by
  unfold padEven
  rw [h.length_eq]
  split
  · exact h
  · exact List.rel_append h (.cons hz .nil)

theorem packLoop_cmp (hW : 1 ≤ wpw p) {one zero : AV p} {fs : List (LoadedF (AV p))} {vs : List (LoadedF (ZMod p))} {last : AV p} {x : ZMod p}
    (hz : Con ext s zero 0) (hl : Con ext s last x) (hf : List.Forall₂ (FCon ext s) fs vs) (h17 : ∀ v ∈ vs, v.words.length = 17)
    (hb : ∀ v ∈ vs, v.isFinal = 0 ∨ v.isFinal = 1) :
    Cmp tbl ext s (packLoop one zero last fs) (fun rs s' => List.Forall₂ (ChunkCon ext s') rs (vChunks (wpw p) x vs)) := by
  induction fs generalizing s vs last x with
  | nil => cases hf; exact Cmp.pure .nil
  | cons f fs ih =>
    rcases hf with _ | @⟨_, v, _, vs, h1, h2⟩
    refine Cmp.bind (mul_cmp (a := .existing f.bytesLeft) (b := .existing last) h1.bl hl) fun len s1 e1 hlen => ?_
    have hws : AvsCon ext s1 (len :: f.words) (v.bytesLeft * x :: v.words) := .cons hlen (AvsCon.mono h1.ws e1)
    refine Cmp.bind (ipResized_cmp hW (hz.mono e1) (chunksOf_forall₂ (wpw p) hws) (fun c hc => (chunks_ne hW _ c hc).2)) fun d s2 e2 hd => ?_
    have e12 := h1.mono e1 |>.mono e2
    refine Cmp.bind (ih (s := s2) ((hz.mono e1).mono e2) e12.fin (h2.imp fun _ _ h => (h.mono e1).mono e2) (fun v h => h17 v (by simp [h])) (fun v h => hb v (by simp [h]))) fun rs s3 e3 hrs => Cmp.pure ?_
    refine .cons ⟨?_, ?_⟩ hrs
    · have hdl : d.length = ceilDiv 18 (wpw p) := by
        rw [List.Forall₂.length_eq hd, List.length_map, chunksOf_length' hW, List.length_cons, h17 v (by simp)]
      show List.Forall₂ (AvsCon ext s3) (chunksOf 2 ((padTo (2 * absorbsPerF p) zero d).take (2 * absorbsPerF p))) (chunksOf 2 (vPackF (wpw p) x v))
      rw [resize_eq hW zero hdl]
      exact chunksOf_forall₂ 2 (padEven_forall₂ (((hz.mono e1).mono e2).mono e3) (AvsCon.mono hd e3))
    · show Con ext s3 f.isFinal (if decide (v.isFinal = 1) = true then 1 else 0)
      have := e12.fin.mono e3
      rcases hb v (by simp) with h | h
      · rw [h] at this ⊢; simpa using this
      · rw [h] at this ⊢; simpa using this

/-! ### the table -/

theorem outputLoop_sound (dk dlo dhi : AV p) (es : List ((AV p × AV p) × LoadedF (AV p))) :
    Sound tbl (outputLoop dk dlo dhi es) (fun w rs => (∀ e ∈ es, at' w e.2.isFinal = 0 ∨ at' w e.2.isFinal = 1) →
      rs.map (valR w) = es.map fun e => if at' w e.2.isFinal = 1 then ⟨at' w e.1.1, at' w e.2.hashLo, at' w e.2.hashHi⟩ else ⟨at' w dk, at' w dlo, at' w dhi⟩) := by
  induction es with
  | nil => exact fun s => Snd.pure fun _ _ _ => rfl
  | cons e es ih =>
    intro s
    refine Snd.bind (select_sound _ _ _ s) fun k s1 _ => ?_
    refine Snd.bind (select_sound _ _ _ s1) fun lo s2 _ => ?_
    refine Snd.bind (select_sound _ _ _ s2) fun hi s3 _ => ?_
    refine Snd.bind (ih s3) fun rs s4 _ => Snd.pure ?_
    rintro w _ h4 ⟨x3, y3, z3, a3, b3, c3, r3⟩ ⟨x2, y2, z2, a2, b2, c2, r2⟩ ⟨x1, y1, z1, a1, b1, c1, r1⟩ hb
    simp only [QOk] at a1 b1 c1 a2 b2 c2 a3 b3 c3
    subst a1 b1 c1 a2 b2 c2 a3 b3 c3
    rw [List.map_cons, h4 fun e he => hb e (by simp [he]), List.map_cons]
    congr 1
    unfold valR
    rw [r1, r2, r3]
    rcases hb e (by simp) with h | h
    · rw [if_neg (by rw [h]; exact zero_ne_one), h]
      simp
    · rw [if_pos h, h]
      simp

theorem table_eq (f : List (ZMod p) → List (ZMod p)) {W : ℕ} (dummy : Row (ZMod p)) (vs : List (LoadedF (ZMod p))) (last : ZMod p) (acc : List (ZMod p)) :
    ((chunkSpec f 2 acc (vChunks W last vs)).zip vs).map (fun e => if e.2.isFinal = 1 then (⟨e.1, e.2.hashLo, e.2.hashHi⟩ : Row (ZMod p)) else dummy) =
      vTable f W dummy last acc vs := by
  induction vs generalizing last acc with
  | nil => rfl
  | cons v vs ih =>
    have hfl : (chunksOf 2 (vPackF W last v)).flatten = vPackF W last v := (chunksOf_spec (by norm_num) _).2.1
    rw [vChunks, chunkSpec, List.zip_cons_cons, List.map_cons, vTable, hfl]
    simp only [decide_eq_true_eq]
    rw [ih]
    congr 1
    by_cases h : v.isFinal = 1
    · simp only [h, if_true]
    · simp only [h, if_false]

theorem chunkLoop_ret (h : Hasher p) (z : AV p) (cs : List (ChunkInput p)) (st : List (AV p)) :
    Ret (chunkLoop h 2 z cs st) (fun r => r.length = cs.length) := by
  induction cs generalizing st with
  | nil => exact Ret.pure rfl
  | cons c cs ih =>
    refine Ret.bind (Ret.any _) fun _ _ => Ret.bind (Ret.any _) fun _ _ => Ret.bind (Ret.any _) fun _ _ => Ret.bind (Ret.any _) fun _ _ =>
      Ret.bind (Ret.any _) fun _ _ => Ret.bind (ih _) fun r h => Ret.pure (by simp [h])

/-- The table of the base circuit, from the values of the loaded cells. -/
theorem baseOutputs_sound {h : Hasher p} (hs : WFSpec h.spec 3) (hl : h.initState.length = 3) (dummy : Row (ZMod p)) (fs : List (LoadedF (AV p)))
    (h17 : ∀ f ∈ fs, f.words.length = 17) :
    Sound tbl (baseOutputs dummy h fs) (fun w rs => 1 ≤ wpw p ∧ (HasherOk h.spec 2 w h → (∀ f ∈ fs, at' w f.isFinal = 0 ∨ at' w f.isFinal = 1) →
      rs.map (valR w) = vTable (nPerm h.spec) (wpw p) dummy 1 [] (fs.map (valF w)))) := by
  intro s
  simp only [baseOutputs, encodeInputs, packInputs]
  rw [bind_assoc, bind_assoc]
  refine Snd.bind (loadConstant_sound _ s) fun one s1 _ => ?_
  rw [bind_assoc]
  refine Snd.bind (loadZero_sound s1) fun zero s2 _ => ?_
  rw [bind_assoc]
  refine Snd.assert fun hW => ?_
  have hW : 1 ≤ wpw p := Nat.one_le_iff_ne_zero.mpr (by simpa using hW)
  refine Snd.bindR (packLoop_sound hW one zero fs h17 one s2) (packLoop_ret hW one zero fs h17 one) fun cs s3 _ hcs => ?_
  refine Snd.bindR (Hasher.hashChunks_sound hs hl (by norm_num) cs hcs.2 s3) (P := fun r => r.length = cs.length)
    (Ret.bind (Ret.any _) fun z _ => chunkLoop_ret h z cs _) fun keys s4 _ hkl => ?_
  simp only [finalOutputs]
  refine Snd.bind (loadConstant_sound _ s4) fun dk s5 _ => ?_
  refine Snd.bind (loadConstant_sound _ s5) fun dlo s6 _ => ?_
  refine Snd.bind (loadConstant_sound _ s6) fun dhi s7 _ => Snd.assert fun hkf => ?_
  refine (outputLoop_sound _ _ _ _ s7).weaken ?_
  rintro w rs _ h8 h7 h6 h5 ⟨-, hk⟩ hpk hz h1
  refine ⟨hW, fun hH hb => ?_⟩
  have hcl : cs.map (fun c => at' w c.isFinal) = fs.map (fun f => at' w f.isFinal) := by
    have := congrArg (List.map (at' w)) hcs.1
    rwa [List.map_map, List.map_map] at this
  have hcb : ∀ c ∈ cs, at' w c.isFinal = 0 ∨ at' w c.isFinal = 1 := by
    intro c hc
    have : at' w c.isFinal ∈ cs.map (fun c => at' w c.isFinal) := List.mem_map_of_mem hc
    rw [hcl] at this
    obtain ⟨f, hf, he⟩ := List.mem_map.mp this
    rw [← he]; exact hb f hf
  have hk := hk hH hcb
  rw [hpk hz, h1] at hk
  rw [h8 fun e he => hb e.2 (List.of_mem_zip he).2, h5, h6, h7, ← table_eq, ← hk, List.zip_map, List.map_map]
  rfl

theorem outputLoop_cmp {dk dlo dhi : AV p} {d : Row (ZMod p)} {ks : List (AV p × AV p)} {fs : List (LoadedF (AV p))} {xs : List (ZMod p)} {vs : List (LoadedF (ZMod p))}
    (h1 : Con ext s dk d.key) (h2 : Con ext s dlo d.lo) (h3 : Con ext s dhi d.hi) (hk : AvsCon ext s (ks.map Prod.fst) xs) (hf : List.Forall₂ (FCon ext s) fs vs)
    (hb : ∀ v ∈ vs, v.isFinal = 0 ∨ v.isFinal = 1) :
    Cmp tbl ext s (outputLoop dk dlo dhi (ks.zip fs)) (fun rs s' => List.Forall₂ (fun (r : Row (AV p)) (v : Row (ZMod p)) =>
        Con ext s' r.key v.key ∧ Con ext s' r.lo v.lo ∧ Con ext s' r.hi v.hi) rs
      ((xs.zip vs).map fun e => if e.2.isFinal = 1 then ⟨e.1, e.2.hashLo, e.2.hashHi⟩ else d)) := by
  induction ks generalizing s fs xs vs with
  | nil => cases hk; exact Cmp.pure .nil
  | cons k ks ih =>
    rw [List.map_cons] at hk
    rcases hk with _ | @⟨_, x, _, xs, k1, k2⟩
    rcases hf with _ | @⟨f, v, fs, vs, f1, f2⟩
    · exact Cmp.pure .nil
    rw [List.zip_cons_cons]
    refine Cmp.bind (select_cmp (a := .existing k.1) (b := .existing dk) (c := .existing f.isFinal) k1 h1 f1.fin) fun r1 s1 e1 hr1 => ?_
    have f1' := f1.mono e1
    refine Cmp.bind (select_cmp (a := .existing f.hashLo) (b := .existing dlo) (c := .existing f.isFinal) f1'.lo (h2.mono e1) f1'.fin) fun r2 s2 e2 hr2 => ?_
    have f1'' := f1'.mono e2
    refine Cmp.bind (select_cmp (a := .existing f.hashHi) (b := .existing dhi) (c := .existing f.isFinal) f1''.hi ((h3.mono e1).mono e2) f1''.fin) fun r3 s3 e3 hr3 => ?_
    have e := (e1.trans e2).trans e3
    refine Cmp.bind (ih (s := s3) (h1.mono e) (h2.mono e) (h3.mono e) (AvsCon.mono k2 e) (f2.imp fun _ _ h => h.mono e) fun v h => hb v (by simp [h])) fun rs s4 e4 hrs => Cmp.pure ?_
    rw [List.zip_cons_cons, List.map_cons]
    refine .cons ?_ hrs
    have g1 := ((hr1.mono e2).mono e3).mono e4
    have g2 := (hr2.mono e3).mono e4
    have g3 := hr3.mono e4
    rcases hb v (by simp) with h | h
    · rw [h, mul_zero, zero_add] at g1 g2 g3
      rw [if_neg (by rw [h]; exact zero_ne_one)]
      exact ⟨g1, g2, g3⟩
    · rw [h, mul_one, sub_add_cancel] at g1 g2 g3
      rw [if_pos h]
      exact ⟨g1, g2, g3⟩

theorem vChunks_length (W : ℕ) (x : ZMod p) (vs : List (LoadedF (ZMod p))) : (vChunks W x vs).length = vs.length := by
  induction vs generalizing x with
  | nil => rfl
  | cons v vs ih => rw [vChunks, List.length_cons, ih, List.length_cons]

theorem vChunks_len2 (W : ℕ) (x : ZMod p) (vs : List (LoadedF (ZMod p))) : ∀ v ∈ vChunks W x vs, ∀ i ∈ v.1, i.length = 2 := by
  induction vs generalizing x with
  | nil => simp [vChunks]
  | cons v vs ih =>
    intro u hu i hi
    rcases List.mem_cons.mp hu with rfl | hu
    · exact chunks2_len _ _ i hi
    · exact ih _ u hu i hi

/-- Completeness of the base circuit. -/
theorem baseOutputs_cmp (hW : 1 ≤ wpw p) {h : Hasher p} {sp : PSpec p} (hs : WFSpec sp 3) (hc : HasherCon sp 2 ext s h) (dummy : Row (ZMod p))
    {fs : List (LoadedF (AV p))} {vs : List (LoadedF (ZMod p))} (hf : List.Forall₂ (FCon ext s) fs vs) (h17 : ∀ v ∈ vs, v.words.length = 17)
    (hb : ∀ v ∈ vs, v.isFinal = 0 ∨ v.isFinal = 1) :
    Cmp tbl ext s (baseOutputs dummy h fs) (fun rs s' => List.Forall₂ (fun (r : Row (AV p)) (v : Row (ZMod p)) =>
        Con ext s' r.key v.key ∧ Con ext s' r.lo v.lo ∧ Con ext s' r.hi v.hi) rs (vTable (nPerm sp) (wpw p) dummy 1 [] vs)) := by
  simp only [baseOutputs, encodeInputs, packInputs]
  rw [bind_assoc, bind_assoc]
  refine Cmp.bind (loadConstant_cmp _) fun one s1 e1 h1 => ?_
  rw [bind_assoc]
  refine Cmp.bind loadZero_cmp fun zero s2 e2 hz => ?_
  rw [bind_assoc]
  refine Cmp.assert (by simp; omega) ?_
  have hf2 : List.Forall₂ (FCon ext s2) fs vs := hf.imp fun _ _ h => (h.mono e1).mono e2
  refine Cmp.bind (packLoop_cmp hW hz (h1.mono e2) hf2 h17 hb) fun cs s3 e3 hcs => ?_
  refine Cmp.bind (Hasher.hashChunks_cmp hs (by norm_num) (((hc.mono e1).mono e2).mono e3) hcs (vChunks_len2 _ _ _)) fun keys s4 e4 hk => ?_
  simp only [finalOutputs]
  refine Cmp.bind (loadConstant_cmp _) fun dk s5 e5 h5 => ?_
  refine Cmp.bind (loadConstant_cmp _) fun dlo s6 e6 h6 => ?_
  refine Cmp.bind (loadConstant_cmp _) fun dhi s7 e7 h7 => Cmp.assert ?_ ?_
  · have := List.Forall₂.length_eq hk
    rw [List.length_map, chunkSpec_length, vChunks_length] at this
    simp [this, List.Forall₂.length_eq hf]
  have e := ((((e3.trans e4).trans e5).trans e6).trans e7)
  have := outputLoop_cmp (tbl := tbl) (d := dummy) ((h5.mono e6).mono e7) (h6.mono e7) h7 (AvsCon.mono hk ((e5.trans e6).trans e7)) (hf2.imp fun _ _ h => h.mono e) hb
  rwa [table_eq] at this

end H2.KC
