import Verif.KecComp.Pure
import Verif.Props.Poseidon

/-!
# Soundness and completeness of the encoding circuits of the Keccak component
-/

set_option autoImplicit false
set_option linter.unusedSectionVars false
namespace H2.KC
open H2.Kec
variable {p : ℕ} [Fact p.Prime] {tbl : ZMod p → Prop} {ext : Cell → ZMod p} {s s' : Ctx p} {w : Cell → ZMod p} {L : ℕ}

theorem zip_take_len {α β : Type} (a : List α) (b : List β) : a.zip (b.take a.length) = a.zip b := by
  induction a generalizing b with
  | nil => simp
  | cons x a ih =>
    cases b with
    | nil => rfl
    | cons y b => simp [ih]

/-- `zip` stops at the end of the shorter list. -/
theorem innerProduct_take (a b : List (QCell p)) (ha : a ≠ []) : innerProduct a b = innerProduct a (b.take a.length) := by
  have h1 : startsWithOne (b.take a.length) = startsWithOne b := by
    cases a with
    | nil => exact absurd rfl ha
    | cons x a => cases b with
      | nil => rfl
      | cons y b => rw [List.length_cons, List.take_succ_cons]; cases y <;> rfl
  have h2 : a.tail.zip (b.take a.length).tail = a.tail.zip b.tail := by
    cases a with
    | nil => exact absurd rfl ha
    | cons x a => cases b with
      | nil => rfl
      | cons y b => rw [List.length_cons, List.take_succ_cons]; exact zip_take_len a b
  unfold innerProduct innerProductSimple ipCells
  rw [h1, h2, zip_take_len]

theorem ip_sound {c : List (AV p)} {ms : List (ZMod p)} (hc : c ≠ []) (hl : c.length ≤ ms.length) :
    Sound tbl (innerProduct (c.map .existing) (ms.map .constant)) (fun w r => at' w r = dot (c.map (at' w)) ms) := by
  intro s
  rw [innerProduct_take _ _ (by simpa using hc), List.length_map, ← List.map_take]
  refine (innerProduct_sound _ _ (by simpa using hl) s).weaken ?_
  rintro w r _ ⟨xs, ys, hx, hy, hr⟩
  rw [hr, QOks.existing hx, QOks.constants hy, ← dot_take _ ms, List.length_map]

theorem ip_cmp {c : List (AV p)} {us ms : List (ZMod p)} (h : AvsCon ext s c us) (hc : c ≠ []) (hl : c.length ≤ ms.length) :
    Cmp tbl ext s (innerProduct (c.map .existing) (ms.map .constant)) (fun r s' => Con ext s' r (dot us ms)) := by
  rw [innerProduct_take _ _ (by simpa using hc), List.length_map, ← List.map_take]
  refine (innerProduct_cmp (QsConT.existing h) (QsConT.constants _) (by simpa using hl)).weaken ?_
  intro r s' hr
  rwa [List.Forall₂.length_eq h, dot_take] at hr

theorem chunks_ne {α : Type} {n : ℕ} (hn : 1 ≤ n) (l : List α) : ∀ c ∈ chunksOf n l, c ≠ [] ∧ c.length ≤ n := by
  intro c hc
  refine ⟨?_, (chunksOf_spec hn l).1 c hc⟩
  rw [chunksOf_range hn] at hc
  obtain ⟨i, hi, rfl⟩ := List.mem_map.mp hc
  have hi := List.mem_range.mp hi
  intro h
  have := congrArg List.length h
  simp only [List.length_take, List.length_drop, List.length_nil] at this
  have h2 : n * (i + 1) ≤ l.length + n - 1 := by
    calc n * (i + 1) ≤ n * ceilDiv l.length n := Nat.mul_le_mul_left _ hi
      _ ≤ l.length + n - 1 := Nat.mul_div_le _ _
  rw [Nat.mul_succ] at h2
  omega

theorem ipBytes_sound {ms : List (ZMod p)} (cs : List (List (AV p))) (hc : ∀ c ∈ cs, c ≠ []) :
    Sound tbl (ipBytes ms cs) (fun w rs => rs.map (at' w) = (cs.map (List.map (at' w))).map fun c => dot c ms) := by
  induction cs with
  | nil => exact fun s => Snd.pure fun _ _ => rfl
  | cons c cs ih =>
    intro s
    refine Snd.rd (sliceTo_rd ms c.length) fun ms' hm => ?_
    obtain ⟨hl, rfl⟩ := hm
    refine Snd.bind (ip_sound (hc c (by simp)) (by simp; exact hl) s) fun r s1 _ => ?_
    refine Snd.bind (ih (fun c h => hc c (by simp [h])) s1) fun rs s2 _ => Snd.pure ?_
    intro w _ h1 h2
    rw [List.map_cons, h1, List.map_cons, List.map_cons, h2]
    congr 1
    rw [← dot_take _ ms, List.length_map]

theorem ipBytes_cmp {ms : List (ZMod p)} {cs : List (List (AV p))} {us : List (List (ZMod p))} (h : List.Forall₂ (AvsCon ext s) cs us)
    (hc : ∀ c ∈ cs, c ≠ [] ∧ c.length ≤ ms.length) :
    Cmp tbl ext s (ipBytes ms cs) (fun rs s' => AvsCon ext s' rs (us.map fun c => dot c ms)) := by
  induction cs generalizing s us with
  | nil => cases h; exact Cmp.pure .nil
  | cons c cs ih =>
    rcases h with _ | @⟨_, v, _, vs, h1, h2⟩
    simp only [ipBytes]
    rw [sliceTo_pure (hc c (by simp)).2, pure_bind]
    refine Cmp.bind (ip_cmp h1 (hc c (by simp)).1 (by simp; exact (hc c (by simp)).2)) fun r s1 e hr => ?_
    refine Cmp.bind (ih (s := s1) (h2.imp fun _ _ h => AvsCon.mono h e) fun c h => hc c (by simp [h])) fun rs s2 e2 hrs => Cmp.pure ?_
    refine .cons ?_ hrs
    rw [List.Forall₂.length_eq h1, dot_take] at hr
    exact hr.mono e2

theorem ipWords_sound {ms : List (ZMod p)} (cs : List (List (AV p))) (hc : ∀ c ∈ cs, c ≠ [] ∧ c.length ≤ ms.length) :
    Sound tbl (ipWords ms cs) (fun w rs => rs.map (at' w) = (cs.map (List.map (at' w))).map fun c => dot c ms) := by
  induction cs with
  | nil => exact fun s => Snd.pure fun _ _ => rfl
  | cons c cs ih =>
    intro s
    refine Snd.bind (ip_sound (hc c (by simp)).1 (hc c (by simp)).2 s) fun r s1 _ => ?_
    refine Snd.bind (ih (fun c h => hc c (by simp [h])) s1) fun rs s2 _ => Snd.pure ?_
    intro w _ h1 h2
    rw [List.map_cons, h1, List.map_cons, List.map_cons, h2]

theorem ipWords_cmp {ms : List (ZMod p)} {cs : List (List (AV p))} {us : List (List (ZMod p))} (h : List.Forall₂ (AvsCon ext s) cs us)
    (hc : ∀ c ∈ cs, c ≠ [] ∧ c.length ≤ ms.length) :
    Cmp tbl ext s (ipWords ms cs) (fun rs s' => AvsCon ext s' rs (us.map fun c => dot c ms)) := by
  induction cs generalizing s us with
  | nil => cases h; exact Cmp.pure .nil
  | cons c cs ih =>
    rcases h with _ | @⟨_, v, _, vs, h1, h2⟩
    refine Cmp.bind (ip_cmp h1 (hc c (by simp)).1 (hc c (by simp)).2) fun r s1 e hr => ?_
    refine Cmp.bind (ih (s := s1) (h2.imp fun _ _ h => AvsCon.mono h e) fun c h => hc c (by simp [h])) fun rs s2 e2 hrs => Cmp.pure ?_
    exact .cons (hr.mono e2) hrs

theorem pack_dot {W : ℕ} (hW : 1 ≤ W) (ws : List (ZMod p)) :
    (chunksOf W ws).map (fun c => dot c (multipliers (2 ^ 64 : ZMod p) W)) = vPack W ws :=
  List.map_congr_left fun c hc => dot_multipliers _ (chunks_ne hW ws c hc).2

theorem ipBlocks_sound {W : ℕ} (hW : 1 ≤ W) (bs : List (List (AV p))) :
    Sound tbl (ipBlocks (multipliers (2 ^ 64 : ZMod p) W) W bs) (fun w rs => rs.map (List.map (at' w)) = bs.map fun b => vPack W (b.map (at' w))) := by
  induction bs with
  | nil => exact fun s => Snd.pure fun _ _ => rfl
  | cons b bs ih =>
    intro s
    refine Snd.bind (ipWords_sound (chunksOf W b) (fun c hc => ⟨(chunks_ne hW b c hc).1, by
      rw [multipliers_length _ hW]; exact (chunks_ne hW b c hc).2⟩) s) fun r s1 _ => ?_
    refine Snd.bind (ih s1) fun rs s2 _ => Snd.pure ?_
    intro w _ h1 h2
    rw [List.map_cons, h1, List.map_cons, h2, ← chunksOf_map, pack_dot hW]

theorem ipBlocks_cmp {W : ℕ} (hW : 1 ≤ W) {bs : List (List (AV p))} {us : List (List (ZMod p))} (h : List.Forall₂ (AvsCon ext s) bs us) :
    Cmp tbl ext s (ipBlocks (multipliers (2 ^ 64 : ZMod p) W) W bs) (fun rs s' => List.Forall₂ (AvsCon ext s') rs (us.map (vPack W))) := by
  induction bs generalizing s us with
  | nil => cases h; exact Cmp.pure .nil
  | cons b bs ih =>
    rcases h with _ | @⟨_, v, _, vs, h1, h2⟩
    refine Cmp.bind (ipWords_cmp (chunksOf_forall₂ W h1) (fun c hc => ⟨(chunks_ne hW b c hc).1, by
      rw [multipliers_length _ hW]; exact (chunks_ne hW b c hc).2⟩)) fun r s1 e hr => ?_
    refine Cmp.bind (ih (s := s1) (h2.imp fun _ _ h => AvsCon.mono h e)) fun rs s2 e2 hrs => Cmp.pure ?_
    rw [pack_dot hW] at hr
    exact .cons (hr.mono e2) hrs

theorem padTo_map {α β : Type} (g : α → β) (n : ℕ) (z : α) (l : List α) : (padTo n z l).map g = padTo n (g z) (l.map g) := by
  simp [padTo]

theorem zipIdx_map' {α β γ : Type} (g : α → β) (h : β × ℕ → γ) (l : List α) : (l.map g).zipIdx.map h = l.zipIdx.map fun e => h (g e.1, e.2) := by
  rw [List.zipIdx_map, List.map_map]; rfl

theorem formatInput_sound (bytes : List (AV p)) (len : AV p) :
    Sound tbl (formatInput bytes len) (fun w rs => 1 ≤ wpw p ∧
      rs.map (List.map (List.map (at' w))) = vFormat (wpw p) (at' w len) (bytes.map (at' w))) := by
  intro s
  refine Snd.bind (loadZero_sound s) fun z s1 _ => ?_
  refine Snd.bind (ipBytes_sound _ (fun c hc => (chunks_ne (by norm_num) _ c hc).1) s1) fun words s2 _ => Snd.assert fun hW => ?_
  have hW : 1 ≤ wpw p := Nat.one_le_iff_ne_zero.mpr (by simpa using hW)
  refine Snd.bind (ipBlocks_sound hW _ s2) fun wits s3 _ => Snd.pure ?_
  intro w _ h3 h2 h1
  refine ⟨hW, ?_⟩
  rw [List.map_map]
  have e1 : (List.map (List.map (at' w)) ∘ fun ws => List.map (padTo 2 z) (chunksOf 2 ws)) = fun ws => vAbs (ws.map (at' w)) := by
    funext ws
    simp only [Function.comp, vAbs]
    rw [List.map_map, chunksOf_map, List.map_map]
    refine List.map_congr_left fun c _ => ?_
    simp only [Function.comp]
    rw [padTo_map, h1]
  rw [e1, show (fun ws : List (AV p) => vAbs (ws.map (at' w))) = vAbs ∘ List.map (at' w) from rfl, ← List.map_map, h3, List.map_map, List.map_map]
  have e2 := perF_eq (at' w len) (bytes.map (at' w))
  rw [← chunksOf_map, List.map_append, List.map_singleton, h1] at h2
  rw [← h2, chunksOf_map, zipIdx_map'] at e2
  unfold vFormat
  rw [List.length_map] at e2 ⊢
  have e3 : (List.range (numF bytes.length)).map (fun i => vAbs (vPack (wpw p) (vBlock (at' w len) (bytes.map (at' w)) i))) =
      ((List.range (numF bytes.length)).map (vBlock (at' w len) (bytes.map (at' w)))).map (fun b => vAbs (vPack (wpw p) b)) := by
    rw [List.map_map]; rfl
  rw [e3, ← e2, List.map_map]
  refine List.map_congr_left fun e _ => ?_
  simp only [Function.comp]
  congr 2
  rw [List.map_cons, padTo_map, h1]
  congr 1
  split
  · rfl
  · exact h1

theorem padTo_forall₂ {α β : Type} {R : α → β → Prop} (n : ℕ) {z : α} {z' : β} (hz : R z z') {l : List α} {l' : List β} (h : List.Forall₂ R l l') :
    List.Forall₂ R (padTo n z l) (padTo n z' l') := by
  unfold padTo
  rw [h.length_eq]
  refine List.rel_append h ?_
  generalize n - l'.length = k
  induction k with
  | zero => exact .nil
  | succ k ih => exact .cons hz ih

theorem zipIdx_forall₂ {α β γ δ : Type} {R : α → β → Prop} {S : γ → δ → Prop} {g : α × ℕ → γ} {g' : β × ℕ → δ} {l : List α} {l' : List β}
    (h : List.Forall₂ R l l') (hg : ∀ a b i, R a b → S (g (a, i)) (g' (b, i))) (k : ℕ) : List.Forall₂ S ((l.zipIdx k).map g) ((l'.zipIdx k).map g') := by
  induction h generalizing k with
  | nil => exact .nil
  | cons h1 _ ih => exact .cons (hg _ _ _ h1) (ih (k + 1))

theorem map_forall₂ {α β γ δ : Type} {R : α → β → Prop} {S : γ → δ → Prop} {g : α → γ} {g' : β → δ} {l : List α} {l' : List β}
    (h : List.Forall₂ R l l') (hg : ∀ a b, R a b → S (g a) (g' b)) : List.Forall₂ S (l.map g) (l'.map g') := by
  induction h with
  | nil => exact .nil
  | cons h1 _ ih => exact .cons (hg _ _ h1) ih

theorem formatInput_cmp (hW : 1 ≤ wpw p) {bytes : List (AV p)} {us : List (ZMod p)} {len : AV p} {v : ZMod p} (hb : AvsCon ext s bytes us)
    (hl : Con ext s len v) :
    Cmp tbl ext s (formatInput bytes len) (fun rs s' =>
      List.Forall₂ (List.Forall₂ (AvsCon ext s')) rs (vFormat (wpw p) v us)) := by
  refine Cmp.bind loadZero_cmp fun z s1 e1 hz => ?_
  have hb1 : AvsCon ext s1 (bytes ++ [z]) (us ++ [0]) := List.rel_append (AvsCon.mono hb e1) (.cons hz .nil)
  refine Cmp.bind (ipBytes_cmp (chunksOf_forall₂ 8 hb1) (fun c hc => ⟨(chunks_ne (by norm_num) _ c hc).1, by
    rw [multipliers_length _ (by norm_num)]; exact (chunks_ne (by norm_num) _ c hc).2⟩)) fun words s2 e2 hw => Cmp.assert (by simp; omega) ?_
  have hz2 := hz.mono e2
  have hl2 := (hl.mono e1).mono e2
  have hp : List.Forall₂ (AvsCon ext s2) ((chunksOf 17 words).zipIdx.map fun e => (if e.2 = 0 then len else z) :: padTo 17 z e.1)
      ((List.range (numF us.length)).map (vBlock v us)) := by
    rw [← perF_eq v us]
    refine zipIdx_forall₂ (chunksOf_forall₂ 17 hw) (fun a b i hab => ?_) 0
    refine .cons ?_ (padTo_forall₂ 17 hz2 hab)
    show Con ext s2 (if i = 0 then len else z) (if i = 0 then v else 0)
    split
    · exact hl2
    · exact hz2
  refine Cmp.bind (ipBlocks_cmp hW hp) fun wits s3 e3 hr => Cmp.pure ?_
  unfold vFormat
  rw [List.map_map] at hr
  have := map_forall₂ (S := List.Forall₂ (AvsCon ext s3)) (g := fun ws => List.map (padTo 2 z) (chunksOf 2 ws)) (g' := vAbs) hr fun a b hab =>
    map_forall₂ (chunksOf_forall₂ 2 hab) fun c d hcd => padTo_forall₂ 2 (hz2.mono e3) hcd
  rwa [List.map_map] at this

/-! ### fixed length -/

theorem flatMap_flatten_map {α β : Type} (g : α → β) (l : List (List (List α))) :
    (l.flatMap List.flatten).map g = (l.map (List.map (List.map g))).flatMap List.flatten := by
  rw [List.map_flatMap, List.flatMap_map]
  congr 1
  funext x
  rw [List.map_flatten]

theorem encodeFixLen_sound {h : Hasher p} (hs : WFSpec h.spec 3) (hl : h.initState.length = 3) (bytes : List (AV p)) :
    Sound tbl (encodeFixLen h bytes) (fun w r => 1 ≤ wpw p ∧ (HasherOk h.spec 2 w h →
      at' w r = spongeHash (nPerm h.spec) 2 ((vFormat (wpw p) ((bytes.length : ℕ) : ZMod p) (bytes.map (at' w))).flatMap List.flatten))) := by
  intro s
  refine Snd.bind (loadConstant_sound _ s) fun len s1 _ => ?_
  refine Snd.bind (formatInput_sound bytes len s1) fun chunks s2 _ => ?_
  refine (Hasher.hashFixLen_sound hs hl _ s2).weaken ?_
  rintro w r _ h3 ⟨hW, h2⟩ h1
  refine ⟨hW, fun hH => ?_⟩
  rw [h3 hH, flatMap_flatten_map, h2, h1]

theorem encodeFixLen_cmp (hW : 1 ≤ wpw p) {h : Hasher p} {sp : PSpec p} (hs : WFSpec sp 3) (hc : HasherCon sp 2 ext s h) {bytes : List (AV p)}
    {us : List (ZMod p)} (hb : AvsCon ext s bytes us) :
    Cmp tbl ext s (encodeFixLen h bytes) (fun r s' =>
      Con ext s' r (spongeHash (nPerm sp) 2 ((vFormat (wpw p) ((us.length : ℕ) : ZMod p) us).flatMap List.flatten))) := by
  refine Cmp.bind (loadConstant_cmp _) fun len s1 e1 h1 => ?_
  refine Cmp.bind (formatInput_cmp hW (AvsCon.mono hb e1) h1) fun chunks s2 e2 h2 => ?_
  have : AvsCon ext s2 (chunks.flatMap List.flatten) ((vFormat (wpw p) ((us.length : ℕ) : ZMod p) us).flatMap List.flatten) := by
    rw [List.Forall₂.length_eq hb] at h2
    clear hb h1
    generalize vFormat (wpw p) ((us.length : ℕ) : ZMod p) us = vs at h2 ⊢
    induction h2 with
    | nil => exact .nil
    | cons h _ ih =>
      rw [List.flatMap_cons, List.flatMap_cons]
      refine List.rel_append ?_ ih
      clear ih
      induction h with
      | nil => exact .nil
      | cons h _ ih => exact List.rel_append h ih
  exact Hasher.hashFixLen_cmp hs (by norm_num) ((hc.mono e1).mono e2) this

end H2.KC
