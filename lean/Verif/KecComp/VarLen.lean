import Verif.KecComp.Sound
import Verif.Poseidon.CompleteChunks
import Verif.SafeTypes.Complete
import Verif.Props.Gate

/-!
# `encode_var_len_bytes_vec`
-/

set_option autoImplicit false
set_option linter.unusedSectionVars false
namespace H2.KC
open H2.Kec
variable {p : ℕ} [Fact p.Prime] {tbl : ZMod p → Prop} {ext : Cell → ZMod p} {s s' : Ctx p} {w : Cell → ZMod p} {L : ℕ}

/-! ### shapes -/

theorem ipBytes_ret (ms : List (ZMod p)) (cs : List (List (AV p))) : Ret (ipBytes ms cs) (fun r => r.length = cs.length) := by
  induction cs with
  | nil => exact Ret.pure rfl
  | cons c cs ih =>
    exact Ret.bind (Ret.any _) fun _ _ => Ret.bind (Ret.any _) fun _ _ => Ret.bind ih fun rs h => Ret.pure (by simp [h])

theorem ipBlocks_ret (ms : List (ZMod p)) (W : ℕ) (cs : List (List (AV p))) : Ret (ipBlocks ms W cs) (fun r => r.length = cs.length) := by
  induction cs with
  | nil => exact Ret.pure rfl
  | cons c cs ih =>
    exact Ret.bind (Ret.any _) fun _ _ => Ret.bind ih fun rs h => Ret.pure (by simp [h])

theorem formatInput_ret (bytes : List (AV p)) (len : AV p) :
    Ret (formatInput bytes len) (fun r => r.length = numF bytes.length ∧ ∀ c ∈ r, ∀ i ∈ c, i.length = 2) := by
  refine Ret.bind (Ret.any _) fun z _ => Ret.bind (ipBytes_ret _ _) fun words hw => Ret.bind (Ret.any _) fun _ _ =>
    Ret.bind (ipBlocks_ret _ _ _) fun wits hl => Ret.pure ⟨?_, ?_⟩
  · rw [chunksOf_length' (by norm_num), List.length_append, List.length_singleton] at hw
    rw [List.length_map, hl, List.length_map, List.length_zipIdx, chunksOf_length' (by norm_num), hw, ← numF_eq]
    congr 1
    simp only [ceilDiv]; omega
  · intro c hc i hi
    obtain ⟨ws, -, rfl⟩ := List.mem_map.mp hc
    obtain ⟨d, hd, rfl⟩ := List.mem_map.mp hi
    exact padTo_length ((chunksOf_spec (by norm_num) ws).1 d hd)

/-! ### a one-hot list of final flags -/

theorem chunkSpec_length (f : List (ZMod p) → List (ZMod p)) (R : ℕ) (rows : List (List (List (ZMod p)) × Bool)) (acc : List (ZMod p)) :
    (chunkSpec f R acc rows).length = rows.length := by
  induction rows generalizing acc with
  | nil => rfl
  | cons r rows ih => obtain ⟨a, b⟩ := r; rw [chunkSpec, List.length_cons, ih, List.length_cons]

theorem chunkSpec_oneHot (f : List (ZMod p) → List (ZMod p)) (R : ℕ) (rows : List (List (List (ZMod p)))) (acc : List (ZMod p)) {q k : ℕ}
    (hk : k ≤ q) (hq : q < k + rows.length) :
    (chunkSpec f R acc ((rows.zipIdx k).map fun e => (e.1, decide (e.2 = q)))).getD (q - k) 0 =
      spongeHash f R (acc ++ (rows.take (q - k + 1)).flatMap List.flatten) := by
  induction rows generalizing acc k with
  | nil => simp at hq; omega
  | cons r rows ih =>
    rw [List.zipIdx_cons, List.map_cons, chunkSpec, List.take_succ_cons, List.flatMap_cons]
    by_cases h : k = q
    · subst h
      simp
    · have e : q - k = q - (k + 1) + 1 := by omega
      rw [e, List.getD_cons_succ]
      have hd : decide (k = q) = false := by simpa using h
      simp only [hd, Bool.false_eq_true, if_false]
      rw [ih (acc ++ r.flatten) (by omega) (by simp only [List.length_cons] at hq; omega), List.append_assoc]

/-- The rows of the one-hot indicator. -/
theorem oneHot_rows (rows : List (List (List (ZMod p)))) {q : ℕ} (x : ZMod p) (hx : x.val = q) (hp : rows.length ≤ p) :
    (rows.zip ((List.range rows.length).map fun i : ℕ => if x = (i : ZMod p) then (1 : ZMod p) else 0)).map (fun e => (e.1, decide (e.2 = 1))) =
      rows.zipIdx.map fun e => (e.1, decide (e.2 = q)) := by
  apply List.ext_getElem
  · simp
  · intro i h1 h2
    have hi : i < rows.length := by simpa using h2
    simp only [List.getElem_map, List.getElem_zip, List.getElem_zipIdx, List.getElem_range, Nat.zero_add]
    congr 1
    have : (x = (i : ZMod p)) ↔ i = q := by
      constructor
      · intro h; rw [← hx, h, ZMod.val_natCast_of_lt (by omega)]
      · rintro rfl; rw [← hx, ZMod.natCast_zmod_val]
    by_cases h : i = q
    · rw [if_pos (this.mpr h)]
      simp [h]
    · rw [if_neg (fun hh => h (this.mp hh))]
      simp [h]

/-- The value computed from the formatted input. -/
theorem oneHot_value (f : List (ZMod p) → List (ZMod p)) (rows : List (List (List (ZMod p)))) (x : ZMod p) (hq : x.val < rows.length) (hp : rows.length ≤ p) :
    dot (chunkSpec f 2 [] ((rows.zip ((List.range rows.length).map fun i : ℕ => if x = (i : ZMod p) then (1 : ZMod p) else 0)).map
        (fun e => (e.1, decide (e.2 = 1)))))
      ((List.range rows.length).map fun i : ℕ => if x = (i : ZMod p) then (1 : ZMod p) else 0) =
      spongeHash f 2 ((rows.take (x.val + 1)).flatMap List.flatten) := by
  rw [oneHot_rows rows x rfl hp]
  have hl := chunkSpec_length f 2 (rows.zipIdx.map fun e => (e.1, decide (e.2 = x.val))) []
  rw [List.length_map, List.length_zipIdx] at hl
  have := dot_indicator (chunkSpec f 2 [] (rows.zipIdx.map fun e => (e.1, decide (e.2 = x.val)))) x (by rw [hl]; exact hp) 0 (by rw [hl]; omega)
  simp only [Nat.zero_add, hl, Nat.zero_le, if_true, Nat.sub_zero] at this
  rw [this]
  have := chunkSpec_oneHot f 2 rows [] (Nat.zero_le x.val) (k := 0) (by omega)
  simpa using this

theorem encodeVarLen_sound (hL : RangeOk p L) {h : Hasher p} (hs : WFSpec h.spec 3) (hl : h.initState.length = 3) (v : VarLenBytes p)
    (hd : DivModOk p L 136 (Nat.size v.bytes.length)) :
    Sound (RangeTable p L) (encodeVarLen L h v) (fun w r => 1 ≤ wpw p ∧ (HasherOk h.spec 2 w h → (at' w v.len).val ≤ v.bytes.length →
      at' w r = spongeHash (nPerm h.spec) 2 (((vFormat (wpw p) (at' w v.len) ((v.bytes.map (at' w)).take (at' w v.len).val ++
        List.replicate (v.bytes.length - (at' w v.len).val) 0)).take (numF (at' w v.len).val)).flatMap List.flatten))) := by
  have hn : v.bytes.length < p := by
    have := Nat.lt_size_self v.bytes.length
    have := hd.sum
    omega
  have hnp : numF v.bytes.length ≤ p := by
    have := hd.sum
    unfold numF; omega
  intro s
  refine Snd.bind (divMod_sound _ 136 _ hL hd s) fun nf s1 _ => ?_
  obtain ⟨nf, rem⟩ := nf
  refine Snd.bindP (idxToIndicator_sound _ _ s1) idxToIndicator_length fun ind s2 _ hind => ?_
  simp only [VarLenBytes.ensure0]
  rw [bind_assoc]
  refine Snd.bind (ensure0Padding_sound _ _ hn s2) fun b s3 _ => ?_
  simp only [varLenNew]
  rw [bind_assoc]
  refine Snd.unwrap fun x _ => ?_
  rw [bind_assoc]
  refine Snd.assert fun _ => ?_
  rw [bind_assoc]
  refine Snd.assert fun hbl => ?_
  have hbl : b.length = v.bytes.length := by simpa using hbl
  rw [pure_bind]
  refine Snd.bindR (formatInput_sound b v.len s3) (formatInput_ret _ _) fun chunks s4 _ hch => ?_
  have hcl : chunks.length = ind.length := by rw [hch.1, hbl, hind]
  set ins := (chunks.zip ind).map fun e => (⟨e.1, e.2⟩ : ChunkInput p) with hins
  have hil : ins.length = ind.length := by rw [hins, List.length_map, List.length_zip, hcl, min_self]
  have hin2 : ∀ c ∈ ins, ∀ i ∈ c.inputs, i.length = 2 := by
    intro c hc i hi
    obtain ⟨e, he, rfl⟩ := List.mem_map.mp hc
    exact hch.2 e.1 (List.of_mem_zip he).1 i hi
  refine Snd.bindR (Hasher.hashChunks_sound hs hl (by norm_num) ins hin2 s4) (P := fun r => r.length = ins.length) ?_ fun outs s5 _ hol => ?_
  · have hloop : ∀ (z : AV p) (cs : List (ChunkInput p)) (st : List (AV p)), Ret (chunkLoop h 2 z cs st) (fun r => r.length = cs.length) := by
      intro z cs
      induction cs with
      | nil => exact fun st => Ret.pure rfl
      | cons c cs ih =>
        intro st
        refine Ret.bind (Ret.any _) fun _ _ => Ret.bind (Ret.any _) fun _ _ => Ret.bind (Ret.any _) fun _ _ => Ret.bind (Ret.any _) fun _ _ =>
          Ret.bind (Ret.any _) fun _ _ => Ret.bind (ih _) fun r h => Ret.pure (by simp [h])
    exact Ret.bind (Ret.any _) fun z _ => hloop z ins _
  refine (selectByIndicator_sound _ ind (by rw [List.length_map, hol, hil]) s5).weaken ?_
  rintro w r _ ⟨xs, hxs, hr⟩ ⟨-, hout⟩ ⟨hW, hfmt⟩ hpad ⟨y, hy, hiv⟩ ⟨z, hz, hdiv, -, -⟩
  refine ⟨hW, fun hH hle => ?_⟩
  simp only [QOk] at hy hz
  subst hy hz
  have hxs : xs = outs.map fun o => at' w o.1 := by
    rw [show outs.map (fun o => (.existing o.1 : QCell p)) = (outs.map Prod.fst).map .existing by rw [List.map_map]; rfl] at hxs
    have := QOks.existing hxs
    rw [this, List.map_map]; rfl
  have hrows := hfmt
  rw [hpad hle] at hrows
  set rows := chunks.map (List.map (List.map (at' w))) with hrw
  have hrl : rows.length = numF v.bytes.length := by rw [hrw, List.length_map, hch.1, hbl]
  have hval : ins.map (ChunkInput.val w) = (rows.zip (ind.map (at' w))).map fun e => (e.1, decide (e.2 = 1)) := by
    rw [hins, hrw, List.map_map, List.zip_map, List.map_map]
    rfl
  have hbits : ∀ c ∈ ins, at' w c.isFinal = 0 ∨ at' w c.isFinal = 1 := by
    intro c hc
    obtain ⟨e, he, rfl⟩ := List.mem_map.mp hc
    have : at' w e.2 ∈ ind.map (at' w) := List.mem_map_of_mem (List.of_mem_zip he).2
    rw [hiv] at this
    obtain ⟨i, -, hi⟩ := List.mem_map.mp this
    show at' w e.2 = 0 ∨ at' w e.2 = 1
    rw [← hi]
    split
    · exact .inr rfl
    · exact .inl rfl
  have hlt : (at' w nf).val < rows.length := by
    rw [hrl, hdiv, numF]
    have := Nat.div_le_div_right (c := 136) hle
    omega
  rw [hr, hxs, hout hH hbits, hval, hiv, ← hrl, oneHot_value _ rows _ hlt (by rw [hrl]; exact hnp), hrows, hdiv]
  rfl

theorem ensure0_cmp {v : VarLenBytes p} {xs : List (ZMod p)} {l : ZMod p} (h : AvsCon ext s v.bytes xs) (hl : Con ext s v.len l)
    (hn : v.bytes.length < p) (hle : l.val ≤ v.bytes.length) :
    Cmp tbl ext s v.ensure0 (fun r s' => AvsCon ext s' r.bytes (xs.take l.val ++ List.replicate (v.bytes.length - l.val) 0) ∧ r.len = v.len) := by
  refine Cmp.bind (ensure0Padding_cmp h hl hn hle) fun b s1 e1 hb => ?_
  have hbl : b.length = v.bytes.length := by
    have := List.Forall₂.length_eq hb
    rw [this, List.length_append, List.length_take, List.length_replicate, ← List.Forall₂.length_eq h]
    omega
  refine (varLenNew_cmp (hl.mono e1) hle hbl hn).weaken ?_
  rintro r s' ⟨rfl, rfl⟩
  exact ⟨hb, rfl⟩

theorem encodeVarLen_cmp (hW : 1 ≤ wpw p) (hL : RangeOk p L) {h : Hasher p} {sp : PSpec p} (hs : WFSpec sp 3) (hc : HasherCon sp 2 ext s h)
    {v : VarLenBytes p} {us : List (ZMod p)} {l : ZMod p} (hb : AvsCon ext s v.bytes us) (hl : Con ext s v.len l) (hle : l.val ≤ us.length)
    (hn : us.length + 1 < p) (hd : safeBits L (2 ^ Nat.size us.length / 136 + 1) ≤ capacity p) (hr : safeBits L 136 ≤ capacity p) :
    Cmp (RangeTable p L) ext s (encodeVarLen L h v) (fun r s' => Con ext s' r
      (spongeHash (nPerm sp) 2 (((vFormat (wpw p) l (us.take l.val ++ List.replicate (us.length - l.val) 0)).take (numF l.val)).flatMap List.flatten))) := by
  have hlen := List.Forall₂.length_eq hb
  unfold encodeVarLen
  rw [hlen]
  refine Cmp.bind (divMod_cmp (a := .existing v.len) hL hl (by norm_num) hd hr
    (Nat.div_le_div_right (le_trans hle (Nat.lt_size_self _).le))) fun nf s1 e1 h1 => ?_
  obtain ⟨nf, rem⟩ := nf
  refine Cmp.bind (idxToIndicator_cmp (idx := .existing nf) (len := numF us.length) h1.1) fun ind s2 e2 hind => ?_
  have hb2 := AvsCon.mono (AvsCon.mono hb e1) e2
  have hl2 := (hl.mono e1).mono e2
  refine Cmp.bind (ensure0_cmp hb2 hl2 (by omega) (by omega)) fun b s3 e3 h3 => ?_
  obtain ⟨bb, bl⟩ := b
  obtain ⟨hb3, rfl⟩ := h3
  rw [hlen] at hb3
  refine Cmp.bind (formatInput_cmp hW hb3 (hl2.mono e3)) fun chunks s4 e4 h4 => ?_
  set rows := vFormat (wpw p) l (us.take l.val ++ List.replicate (us.length - l.val) 0) with hrows
  set q : ZMod p := ((l.val / 136 : ℕ) : ZMod p) with hq
  have hrl : rows.length = numF us.length := by
    rw [hrows, vFormat, List.length_map, List.length_range]
    congr 1
    simp only [List.length_append, List.length_take, List.length_replicate]
    omega
  have hqv : q.val = l.val / 136 := ZMod.val_natCast_of_lt (by omega)
  set iv := (List.range rows.length).map (fun i : ℕ => if q = (i : ZMod p) then (1 : ZMod p) else 0) with hiv
  have hind4 : AvsCon ext s4 ind iv := by
    rw [hiv, hrl]; exact AvsCon.mono (AvsCon.mono hind e3) e4
  have hcon : List.Forall₂ (ChunkCon ext s4) ((chunks.zip ind).map fun e => (⟨e.1, e.2⟩ : ChunkInput p))
      ((rows.zip iv).map fun e => (e.1, decide (e.2 = 1))) := by
    have hbit : ∀ y ∈ iv, y = 0 ∨ y = 1 := by
      intro y hy
      obtain ⟨i, -, rfl⟩ := List.mem_map.mp hy
      split
      · exact .inr rfl
      · exact .inl rfl
    clear_value iv rows
    clear hrl hiv hrows hind
    induction h4 generalizing ind iv with
    | nil => exact .nil
    | cons h _ ih =>
      rcases hind4 with _ | @⟨i, y, is, ys, i1, i2⟩
      · exact .nil
      · refine .cons ⟨h, ?_⟩ (ih _ _ i2 fun y hy => hbit y (by simp [hy]))
        show Con ext s4 i (if decide (y = 1) = true then 1 else 0)
        rcases hbit y (by simp) with rfl | rfl
        · simpa using i1
        · simpa using i1
  have hl2' : ∀ v ∈ (rows.zip iv).map (fun e => (e.1, decide (e.2 = 1))), ∀ i ∈ v.1, i.length = 2 := by
    intro v hv i hi
    obtain ⟨e, he, rfl⟩ := List.mem_map.mp hv
    have := (List.of_mem_zip he).1
    rw [hrows] at this
    obtain ⟨j, -, hj⟩ := List.mem_map.mp this
    rw [← hj] at hi
    exact vAbs_len _ i hi
  refine Cmp.bind (Hasher.hashChunks_cmp hs (by norm_num) ((((hc.mono e1).mono e2).mono e3).mono e4) hcon hl2') fun outs s5 e5 h5 => ?_
  have hq1 : QsConT ext s5 (outs.map fun o => .existing o.1) (chunkSpec (nPerm sp) 2 [] ((rows.zip iv).map fun e => (e.1, decide (e.2 = 1)))) := by
    have := QsConT.existing h5
    rwa [List.map_map] at this
  have hsl : outs.length = ind.length := by
    have h1 := List.Forall₂.length_eq h5
    have h2 := List.Forall₂.length_eq hind4
    rw [List.length_map, chunkSpec_length, List.length_map, List.length_zip] at h1
    rw [h1, h2, hiv]
    simp
  refine (selectByIndicator_cmp hq1 (AvsCon.mono hind4 e5) (by rw [List.length_map, hsl]) (indicator_atMostOneHot (by rw [hrl]; unfold numF; omega))).weaken ?_
  intro r s6 hr
  rwa [hiv, oneHot_value _ rows q (by rw [hqv, hrl]; unfold numF; have := Nat.div_le_div_right (c := 136) hle; omega)
    (by rw [hrl]; unfold numF; omega), hqv] at hr

end H2.KC
