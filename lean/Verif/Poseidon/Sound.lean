import Verif.Core.Ret
import Verif.Poseidon.Native
import Verif.SafeTypes.Sound
import Verif.SafeTypes.Complete

/-! # Soundness of the Poseidon state: the cells hold exactly what the native computation gives -/

set_option autoImplicit false
namespace H2
variable {p : ℕ} [Fact p.Prime] {tbl : ZMod p → Prop} {L : ℕ}

theorem pow5c_sound (x : AV p) (c : ZMod p) : Sound tbl (pow5c x c) (fun w r => at' w r = at' w x ^ 5 + c) := by
  intro s
  refine Snd.bind (mul_sound _ _ s) fun x2 s1 _ => ?_
  refine Snd.bind (mul_sound _ _ s1) fun x4 s2 _ => ?_
  refine (mulAdd_sound _ _ _ s2).weaken ?_
  rintro w r _ ⟨a, b, c', ha, hb, hc, h⟩ ⟨d, e, hd, he, h2⟩ ⟨f, g, hf, hg, h3⟩
  simp only [QOk] at ha hb hc hd he hf hg
  rw [h, ha, hb, hc, h2, hd, he, h3, hf, hg]; ring

theorem sboxFull_sound (xs : List (AV p)) (cs : List (ZMod p)) (hl : xs.length = cs.length) :
    Sound tbl (sboxFull xs cs) (fun w rs => rs.map (at' w) = nSbox (xs.map (at' w)) cs) := by
  induction xs generalizing cs with
  | nil => exact fun s => by simpa [sboxFull] using Snd.pure fun w _ => by simp [nSbox]
  | cons x xs ih =>
    cases cs with
    | nil => simp at hl
    | cons c cs =>
      intro s
      refine Snd.bind (pow5c_sound x c s) fun y s1 _ => ?_
      refine Snd.bind (ih cs (by simpa using hl) s1) fun ys s2 _ => Snd.pure ?_
      intro w _ h1 h2
      simpa [nSbox, h2] using h1

theorem sboxFull_ret (xs : List (AV p)) (cs : List (ZMod p)) :
    Ret (sboxFull xs cs) (fun rs => rs.length = xs.length) := by
  induction xs generalizing cs with
  | nil => exact Ret.pure (by simp)
  | cons x xs ih =>
    cases cs with
    | nil => exact Ret.pure (by simp)
    | cons c cs => exact Ret.bind_ fun y => (ih cs).bind fun ys h => Ret.pure (by simp [h])

theorem sboxPart_sound (xs : List (AV p)) (c : ZMod p) :
    Sound tbl (sboxPart xs c) (fun w rs => rs.map (at' w) = nSboxPart (xs.map (at' w)) c) := by
  intro s
  cases xs with
  | nil => exact Snd.panic
  | cons x xs =>
    refine Snd.bind (pow5c_sound x c s) fun y s1 _ => Snd.pure ?_
    intro w _ h
    simp [nSboxPart, h]

theorem sboxPart_ret (xs : List (AV p)) (c : ZMod p) : Ret (sboxPart xs c) (fun rs => rs.length = xs.length) := by
  cases xs with
  | nil => exact Ret.panic
  | cons x xs => exact Ret.bind_ fun y => Ret.pure (by simp)

theorem applyMds_sound (xs : List (AV p)) (m : List (List (ZMod p))) (hm : ∀ r ∈ m, r.length = xs.length) :
    Sound tbl (applyMds xs m) (fun w rs => rs.map (at' w) = nMds m (xs.map (at' w))) := by
  induction m with
  | nil => exact fun s => Snd.pure fun w _ => rfl
  | cons r m ih =>
    intro s
    refine Snd.bind (innerProduct_sound _ _ (by simp [hm r (by simp)]) s) fun y s1 _ => ?_
    refine Snd.bind (ih (fun r hr => hm r (by simp [hr])) s1) fun ys s2 _ => Snd.pure ?_
    rintro w _ h ⟨us, vs, hu, hv, h2⟩
    rw [QOks_existing hu, QOks_constants hv] at h2
    simp [nMds, h, h2]

theorem applyMds_ret (xs : List (AV p)) (m : List (List (ZMod p))) :
    Ret (applyMds xs m) (fun rs => rs.length = m.length) := by
  induction m with
  | nil => exact Ret.pure rfl
  | cons r m ih => exact Ret.bind_ fun y => ih.bind fun ys h => Ret.pure (by simp [h])

theorem sparseTail_sound (s0 : AV p) (cs : List (ZMod p)) (xs : List (AV p)) :
    Sound tbl (sparseTail s0 cs xs) (fun w rs => rs.map (at' w) =
      List.zipWith (fun c x => at' w s0 * c + x) cs (xs.map (at' w))) := by
  induction cs generalizing xs with
  | nil => exact fun s => Snd.pure fun w _ => by simp
  | cons c cs ih =>
    cases xs with
    | nil => exact fun s => Snd.pure fun w _ => by simp
    | cons x xs =>
      intro s
      refine Snd.bind (mulAdd_sound _ _ _ s) fun y s1 _ => ?_
      refine Snd.bind (ih xs s1) fun ys s2 _ => Snd.pure ?_
      rintro w _ h ⟨a, b, d, ha, hb, hd, h2⟩
      simp only [QOk] at ha hb hd
      simp [h, h2, ha, hb, hd]

theorem sparseTail_ret (s0 : AV p) (cs : List (ZMod p)) (xs : List (AV p)) :
    Ret (sparseTail s0 cs xs) (fun rs => rs.length = min cs.length xs.length) := by
  induction cs generalizing xs with
  | nil => exact Ret.pure (by simp)
  | cons c cs ih =>
    cases xs with
    | nil => exact Ret.pure (by simp)
    | cons x xs => exact Ret.bind_ fun y => (ih xs).bind fun ys h => Ret.pure (by simp [h])

theorem applySparse_sound (xs : List (AV p)) (m : SparseMDS p) (hm : m.row.length = xs.length) :
    Sound tbl (applySparse xs m) (fun w rs => rs.map (at' w) = nSparse m (xs.map (at' w))) := by
  intro s
  refine Snd.bind (innerProduct_sound _ _ (by simp [hm]) s) fun y s1 _ => Snd.unwrap fun s0 h0 => ?_
  refine Snd.bind (sparseTail_sound _ _ _ s1) fun ys s2 _ => Snd.pure ?_
  rintro w _ h ⟨us, vs, hu, hv, h2⟩
  rw [QOks_existing hu, QOks_constants hv] at h2
  simp only [List.map_cons, nSparse, h, h2, List.map_tail]
  simp [List.getD, h0]

theorem applySparse_ret (xs : List (AV p)) (m : SparseMDS p) :
    Ret (applySparse xs m) (fun rs => rs.length = min m.colHat.length (xs.length - 1) + 1) :=
  Ret.bind_ fun _ => Ret.bind_ fun _ => (sparseTail_ret _ _ _).bind fun ys h => Ret.pure (by simp [h])

theorem fullRounds_ret (mds : List (List (ZMod p))) (cs : List (List (ZMod p))) (xs : List (AV p)) (T : ℕ)
    (hx : xs.length = T) (hm : mds.length = T) : Ret (fullRounds mds cs xs) (fun rs => rs.length = T) := by
  induction cs generalizing xs with
  | nil => exact Ret.pure hx
  | cons c cs ih =>
    exact Ret.bind_ fun y => (applyMds_ret _ _).bind fun z hz => ih z (by rw [hz, hm])

theorem fullRounds_sound (mds : List (List (ZMod p))) (cs : List (List (ZMod p))) (xs : List (AV p)) {T : ℕ}
    (hx : xs.length = T) (hm : mds.length = T) (hr : ∀ r ∈ mds, r.length = T) (hc : ∀ c ∈ cs, c.length = T) :
    Sound tbl (fullRounds mds cs xs) (fun w rs => rs.map (at' w) = nFull mds cs (xs.map (at' w))) := by
  induction cs generalizing xs with
  | nil => exact fun s => Snd.pure fun w _ => rfl
  | cons c cs ih =>
    intro s
    refine Snd.bindR (sboxFull_sound xs c (by rw [hx, hc c (by simp)]) s) (sboxFull_ret _ _) fun y s1 _ hy => ?_
    refine Snd.bindR (applyMds_sound y mds (fun r h => by rw [hr r h, hy, hx]) s1) (applyMds_ret _ _) fun z s2 _ hz => ?_
    refine (ih z (by rw [hz, hm]) (fun c h => hc c (by simp [h])) s2).weaken ?_
    intro w r _ h1 h2 h3
    rw [h1, h2, h3]; rfl

theorem partRounds_ret (l : List (ZMod p × SparseMDS p)) (xs : List (AV p)) {T : ℕ}
    (hx : xs.length = T) (hT : 1 ≤ T) (hl : ∀ e ∈ l, e.2.colHat.length = T - 1) :
    Ret (partRounds l xs) (fun rs => rs.length = T) := by
  induction l generalizing xs with
  | nil => exact Ret.pure hx
  | cons e l ih =>
    refine (sboxPart_ret _ _).bind fun y hy => (applySparse_ret _ _).bind fun z hz => ih z ?_ fun e h => hl e (by simp [h])
    rw [hz, hl e (by simp), hy, hx]; omega

theorem partRounds_sound (l : List (ZMod p × SparseMDS p)) (xs : List (AV p)) {T : ℕ}
    (hx : xs.length = T) (hT : 1 ≤ T) (hl : ∀ e ∈ l, e.2.row.length = T ∧ e.2.colHat.length = T - 1) :
    Sound tbl (partRounds l xs) (fun w rs => rs.map (at' w) = nPart l (xs.map (at' w))) := by
  induction l generalizing xs with
  | nil => exact fun s => Snd.pure fun w _ => rfl
  | cons e l ih =>
    intro s
    have he := hl e (by simp)
    refine Snd.bindR (sboxPart_sound xs e.1 s) (sboxPart_ret _ _) fun y s1 _ hy => ?_
    refine Snd.bindR (applySparse_sound y e.2 (by rw [he.1, hy, hx]) s1) (applySparse_ret _ _) fun z s2 _ hz => ?_
    refine (ih z (by rw [hz, he.2, hy, hx]; omega) (fun c h => hl c (by simp [h])) s2).weaken ?_
    intro w r _ h1 h2 h3
    rw [h1, h2, h3]; rfl

theorem zip_snd_mem {α β : Type} {l : List α} {m : List β} {e : α × β} (h : e ∈ l.zip m) : e.2 ∈ m :=
  (List.of_mem_zip h).2

theorem permRounds_sound (sp : PSpec p) (xs : List (AV p)) {T : ℕ} (hs : WFSpec sp T) (hx : xs.length = T) :
    Sound tbl (permRounds sp xs) (fun w rs => rs.map (at' w) = nRounds sp (xs.map (at' w))) := by
  intro s
  refine Snd.bindR (fullRounds_sound _ _ xs hx hs.mds hs.mdsRow
    (fun c h => hs.start c (List.mem_of_mem_drop (List.mem_of_mem_take h))) s)
    (fullRounds_ret _ _ _ _ hx hs.mds) fun a s1 _ ha => ?_
  refine Snd.unwrap fun last hlast => ?_
  have hlast' : sp.start.getLastD [] = last := by rw [List.getLastD_eq_getLast?, hlast]; rfl
  have hll : last.length = T := hs.start _ (List.mem_of_getLast? hlast)
  refine Snd.bindR (sboxFull_sound a last (by rw [ha, hll]) s1) (sboxFull_ret _ _) fun b s2 _ hb => ?_
  refine Snd.bindR (applyMds_sound b sp.preSparse (fun r h => by rw [hs.preRow r h, hb, ha]) s2) (applyMds_ret _ _)
    fun c s3 _ hc => ?_
  rw [hs.pre] at hc
  refine Snd.bindR (partRounds_sound _ c hc hs.pos (fun e h => hs.sparse _ (zip_snd_mem h)) s3)
    (partRounds_ret _ _ hc hs.pos fun e h => (hs.sparse _ (zip_snd_mem h)).2) fun d s4 _ hd => ?_
  refine Snd.bindR (fullRounds_sound _ _ d hd hs.mds hs.mdsRow hs.fin s4)
    (fullRounds_ret _ _ _ _ hd hs.mds) fun e s5 _ he => ?_
  refine Snd.bindR (sboxFull_sound e _ (by simp) s5) (sboxFull_ret _ _) fun f s6 _ hf => ?_
  refine (applyMds_sound f sp.mds (fun r h => by rw [hs.mdsRow r h, hf, he]) s6).weaken ?_
  intro w r _ h1 h2 h3 h4 h5 h6 h7
  simp only [nRounds, hlast']
  rw [h1, h2, ← h7, ← h6, ← h5, ← h4, ← h3, List.length_map]

theorem permRounds_ret (sp : PSpec p) (xs : List (AV p)) : Ret (permRounds sp xs) (fun rs => rs.length = sp.mds.length) :=
  Ret.bind_ fun _ => Ret.bind_ fun _ => Ret.bind_ fun _ => Ret.bind_ fun _ => Ret.bind_ fun _ => Ret.bind_ fun _ =>
    Ret.bind_ fun _ => applyMds_ret _ _

/-! ### absorbing -/

theorem absorbRest_ret (b : Bool) (xs : List (AV p)) (cs : List (ZMod p)) :
    Ret (absorbRest b xs cs) (fun rs => rs.length = xs.length) := by
  induction xs generalizing cs b with
  | nil => exact Ret.pure (by simp)
  | cons x xs ih =>
    cases cs with
    | nil => exact Ret.pure (by simp)
    | cons c cs => exact Ret.bind_ fun y => (ih _ cs).bind fun ys h => Ret.pure (by simp [h])

theorem absorbRest_sound (b : Bool) (xs : List (AV p)) (cs : List (ZMod p)) (hl : xs.length = cs.length) (n : ℕ)
    (hn : xs.length ≤ n) :
    Sound tbl (absorbRest b xs cs) (fun w rs => rs.map (at' w) = addv (addv (xs.map (at' w))
      ((if b then (1 : ZMod p) else 0) :: List.replicate n 0)) cs) := by
  induction xs generalizing cs b n with
  | nil => exact fun s => by simpa [absorbRest] using Snd.pure fun w _ => by simp [addv]
  | cons x xs ih =>
    cases cs with
    | nil => simp at hl
    | cons c cs =>
      obtain ⟨n, rfl⟩ : ∃ m, n = m + 1 := ⟨n - 1, by simp at hn; omega⟩
      intro s
      refine Snd.bind (add_sound _ _ s) fun y s1 _ => ?_
      refine Snd.bind (ih false cs (by simpa using hl) n (by simpa using hn) s1) fun ys s2 _ => Snd.pure ?_
      rintro w _ h ⟨a, d, ha, hd, h2⟩
      simp only [QOk] at ha hd
      simp only [List.map_cons, h, h2, ha, hd, addv, List.zipWith_cons_cons, List.cons.injEq, Bool.false_eq_true,
        if_false, List.replicate_succ, and_true]
      cases b
      · simp
      · simp; ring

theorem absorbTail_ret (xs : List (AV p)) (cs : List (ZMod p)) (is : List (AV p)) :
    Ret (absorbTail xs cs is) (fun rs => rs.length = xs.length) := by
  induction xs generalizing cs is with
  | nil => unfold absorbTail; exact absorbRest_ret _ _ _
  | cons x xs ih =>
    rcases cs with _ | ⟨c, cs⟩ <;> rcases is with _ | ⟨i, is⟩
    · exact absorbRest_ret _ _ _
    · exact absorbRest_ret _ _ _
    · exact absorbRest_ret _ _ _
    · exact Ret.bind_ fun y => (ih cs is).bind fun ys h => Ret.pure (by simp [h])

theorem absorbTail_sound (xs : List (AV p)) (cs : List (ZMod p)) (is : List (AV p)) (hl : xs.length = cs.length)
    (n : ℕ) (hn : xs.length ≤ n) :
    Sound tbl (absorbTail xs cs is) (fun w rs => rs.map (at' w) =
      addv (addv (xs.map (at' w)) (is.map (at' w) ++ 1 :: List.replicate n 0)) cs) := by
  induction xs generalizing cs is with
  | nil =>
    intro s
    unfold absorbTail
    refine (absorbRest_sound true [] cs hl n hn s).weaken ?_
    intro w r _ h
    change _ = _
    rw [show r.map (at' w) = _ from h]; simp [addv]
  | cons x xs ih =>
    cases cs with
    | nil => simp at hl
    | cons c cs =>
      cases is with
      | nil =>
        intro s
        refine (absorbRest_sound true (x :: xs) (c :: cs) hl n hn s).weaken ?_
        intro w r _ h
        exact h
      | cons i is =>
        intro s
        refine Snd.bind (sum_sound _ s) fun y s1 _ => ?_
        refine Snd.bind (ih cs is (by simpa using hl) (by simp at hn; omega) s1) fun ys s2 _ => Snd.pure ?_
        rintro w _ h ⟨a, ha, h2⟩
        rcases ha with _ | ⟨ha, _ | ⟨hb, _ | ⟨hc, _ | _⟩⟩⟩
        simp only [QOk] at ha hb hc
        simp only [List.map_cons, h, h2, ha, hb, hc, addv, List.zipWith_cons_cons, List.cons.injEq, List.cons_append,
          and_true]
        simp [add_assoc]

theorem addv_take (xs : List (ZMod p)) : ∀ l : List (ZMod p), addv xs (l.take xs.length) = addv xs l := by
  induction xs with
  | nil => simp [addv]
  | cons x xs ih =>
    intro l
    cases l with
    | nil => simp [addv]
    | cons a l => simp only [addv, List.length_cons, List.take_succ_cons, List.zipWith_cons_cons]; exact congrArg _ (ih l)

theorem absorb_ret (xs is : List (AV p)) (cs : List (ZMod p)) : Ret (absorb xs is cs) (fun rs => rs.length = xs.length) := by
  refine Ret.bind_ fun _ => ?_
  rcases xs with _ | ⟨x, xs⟩ <;> rcases cs with _ | ⟨c, cs⟩
  · exact Ret.panic
  · exact Ret.panic
  · exact Ret.panic
  · exact Ret.bind_ fun y => (absorbTail_ret _ _ _).bind fun ys h => Ret.pure (by simp [h])

theorem absorb_sound (xs is : List (AV p)) (cs : List (ZMod p)) (hl : xs.length = cs.length) :
    Sound tbl (absorb xs is cs) (fun w rs => rs.map (at' w) =
      addv (addv (xs.map (at' w)) (0 :: padBlock (xs.length - 1) (is.map (at' w)))) cs ∧ is.length < xs.length) := by
  intro s
  refine Snd.assert fun hi => ?_
  rcases xs with _ | ⟨x, xs⟩ <;> rcases cs with _ | ⟨c, cs⟩
  · exact Snd.panic
  · exact Snd.panic
  · exact Snd.panic
  · refine Snd.bind (add_sound _ _ s) fun y s1 _ => ?_
    refine Snd.bind (absorbTail_sound xs cs is (by simpa using hl) _ le_rfl s1) fun ys s2 _ => Snd.pure ?_
    rintro w _ h ⟨a, d, ha, hd, h2⟩
    simp only [QOk] at ha hd
    refine ⟨?_, by simpa using hi⟩
    have := addv_take (xs.map (at' w)) (is.map (at' w) ++ 1 :: List.replicate xs.length 0)
    rw [List.length_map] at this
    simp only [List.map_cons, h, h2, ha, hd, padBlock, List.length_cons, Nat.add_sub_cancel]
    change _ = (at' w x + 0 + c) :: addv (addv _ _) cs
    rw [this, add_zero]

/-! ### variable-length absorb -/

theorem addConsts_ret (xs : List (AV p)) (cs : List (ZMod p)) :
    Ret (addConsts xs cs) (fun rs => rs.length = xs.length) := by
  induction xs generalizing cs with
  | nil => exact Ret.pure (by simp)
  | cons x xs ih =>
    cases cs with
    | nil => exact Ret.pure (by simp)
    | cons c cs => exact Ret.bind_ fun y => (ih cs).bind fun ys h => Ret.pure (by simp [h])

theorem addConsts_sound (xs : List (AV p)) (cs : List (ZMod p)) (hl : xs.length = cs.length) :
    Sound tbl (addConsts xs cs) (fun w rs => rs.map (at' w) = addv (xs.map (at' w)) cs) := by
  induction xs generalizing cs with
  | nil => exact fun s => by simpa [addConsts] using Snd.pure fun w _ => by simp [addv]
  | cons x xs ih =>
    cases cs with
    | nil => simp at hl
    | cons c cs =>
      intro s
      refine Snd.bind (add_sound _ _ s) fun y s1 _ => ?_
      refine Snd.bind (ih cs (by simpa using hl) s1) fun ys s2 _ => Snd.pure ?_
      rintro w _ h ⟨a, d, ha, hd, h2⟩
      simp only [QOk] at ha hd
      simp only [List.map_cons, h, h2, ha, hd, addv, List.zipWith_cons_cons]

theorem absorbVarLoop_ret (xs : List (AV p)) (l : List (AV p × AV p)) :
    Ret (absorbVarLoop xs l) (fun rs => rs.length = xs.length) := by
  induction l generalizing xs with
  | nil => unfold absorbVarLoop; exact Ret.pure rfl
  | cons e l ih =>
    obtain ⟨pd, ind⟩ := e
    rcases xs with _ | ⟨x, _ | ⟨y, ys⟩⟩
    · exact Ret.panic
    · exact Ret.bind_ fun x' => (ih []).bind fun r h => Ret.pure (by simpa using h)
    · exact Ret.bind_ fun x' => Ret.bind_ fun y' => (ih _).bind fun r h => Ret.pure (by simpa using h)

/-- With as many blocks as state elements, the loop adds `pad[i]` to element `i` and `ind[i]` to element `i + 1`. -/
theorem absorbVarLoop_sound (xs : List (AV p)) (l : List (AV p × AV p)) :
    Sound tbl (absorbVarLoop xs l) (fun w rs => xs.length = l.length → rs.map (at' w) =
      addv (addv (xs.map (at' w)) (l.map (fun e => at' w e.1))) (0 :: l.map (fun e => at' w e.2))) := by
  induction l generalizing xs with
  | nil =>
    intro s
    unfold absorbVarLoop
    refine Snd.pure fun w _ hl => ?_
    have : xs = [] := by simpa using hl
    subst this
    simp [addv]
  | cons e l ih =>
    obtain ⟨pd, ind⟩ := e
    intro s
    rcases xs with _ | ⟨x, _ | ⟨y, ys⟩⟩
    · exact Snd.panic
    · refine Snd.bind (add_sound _ _ s) fun x' s1 _ => ?_
      refine Snd.bind (ih [] s1) fun r s2 _ => Snd.pure ?_
      rintro w _ h ⟨a, d, ha, hd, h2⟩ hl
      have : l = [] := by simpa using hl.symm
      subst this
      have h := h rfl
      simp only [QOk] at ha hd
      rw [List.map_cons, h]
      simp [addv, h2, ha, hd]
    · refine Snd.bind (add_sound _ _ s) fun x' s1 _ => ?_
      refine Snd.bind (add_sound _ _ s1) fun y' s2 _ => ?_
      refine Snd.bind (ih (y' :: ys) s2) fun r s3 _ => Snd.pure ?_
      rintro w _ h ⟨a, d, ha, hd, h2⟩ ⟨b, f, hb, hf, h3⟩ hl
      simp only [QOk] at ha hd hb hf
      rw [List.map_cons, h (by simpa using hl)]
      cases l with
      | nil => simp at hl
      | cons e l => simp [addv, h2, h3, ha, hd, hb, hf]; ring

theorem absorbVarEnd_ret (xs m : List (AV p)) : Ret (absorbVarEnd xs m) (fun rs => rs.length = xs.length) := by
  refine Ret.bind_ fun _ => Ret.bind_ fun _ => ?_
  rcases xs with _ | ⟨x, _ | ⟨y, ys⟩⟩
  · exact Ret.panic
  · exact Ret.panic
  · exact Ret.bind_ fun _ => Ret.pure (by simp)

theorem absorbVarEnd_sound (xs m : List (AV p)) :
    Sound tbl (absorbVarEnd xs m) (fun w rs => ∃ (x0 x1 : AV p) (ys : List (AV p)) (m0 : AV p), xs = x0 :: x1 :: ys ∧
      m[0]? = some m0 ∧
      rs.map (at' w) = at' w x0 :: (at' w x1 + (1 - at' w m0)) :: ys.map (at' w)) := by
  intro s
  refine Snd.unwrap fun m0 hm0 => ?_
  refine Snd.bind (not_sound _ s) fun e s1 _ => ?_
  rcases xs with _ | ⟨x, _ | ⟨y, ys⟩⟩
  · exact Snd.panic
  · exact Snd.panic
  · refine Snd.bind (add_sound _ _ s1) fun y' s2 _ => Snd.pure ?_
    rintro w _ ⟨a, d, ha, hd, h2⟩ ⟨b, hb, h3⟩
    simp only [QOk] at ha hd hb
    exact ⟨x, y, ys, m0, rfl, hm0, by simp [h2, h3, ha, hd, hb]⟩

theorem absorbVar_ret (R : ℕ) (xs is : List (AV p)) (len : AV p) (cs : List (ZMod p)) :
    Ret (absorbVar R xs is len cs) (fun rs => rs.length = xs.length) := by
  refine (addConsts_ret _ _).bind fun a ha => Ret.bind_ fun _ => Ret.bind_ fun _ => Ret.bind_ fun _ => Ret.bind_ fun _ => ?_
  cases a with
  | nil => exact Ret.panic
  | cons x0 xs =>
    exact (absorbVarLoop_ret _ _).bind fun ys h => (absorbVarEnd_ret _ _).weaken fun r hr => by
      rw [hr, ← ha]; simp [h]

/-- Adding the padded inputs, the indicator and the `empty` flag is adding the padded block. -/
theorem varBlock_eq (n l : ℕ) (xs : List (ZMod p)) (hx : xs.length = n + 1) (hl : l ≤ n + 1) :
    addv (List.zipWith (· * ·) xs ((List.range (n + 1)).map (fun i : ℕ => if i < l then (1 : ZMod p) else 0)))
      (((1 : ZMod p) - (if 0 < l then 1 else 0)) ::
        (List.range n).map (fun j : ℕ => if j + 1 = l then (1 : ZMod p) else 0)) = padBlock (n + 1) (xs.take l) := by
  refine List.ext_getElem (by simp [addv, padBlock, hx]; omega) fun i h1 h2 => ?_
  have hi : i < n + 1 := by rw [padBlock_length] at h2; exact h2
  simp only [addv, padBlock, List.getElem_zipWith, List.getElem_map, List.getElem_range, List.getElem_take,
    List.getElem_append, List.length_take, hx, Nat.min_eq_left hl]
  by_cases hil : i < l
  · rw [dif_pos hil, if_pos hil]
    cases i with
    | zero => simp [hil]
    | succ i => rw [List.getElem_cons_succ]; simp; intro h; omega
  · rw [dif_neg hil, if_neg hil]
    rcases i with _ | i
    · have : l = 0 := by omega
      subst this; simp
    · rw [List.getElem_cons_succ]
      by_cases h : i + 1 = l
      · subst h; simp
      · obtain ⟨d, hd⟩ : ∃ d, i + 1 - l = d + 1 := ⟨i - l, by omega⟩
        simp [h, hd]

theorem addv_assoc (a b c : List (ZMod p)) : addv (addv a b) c = addv a (addv b c) := by
  induction a generalizing b c with
  | nil => simp [addv]
  | cons x a ih =>
    rcases b with _ | ⟨y, b⟩ <;> rcases c with _ | ⟨z, c⟩
    · simp [addv]
    · simp [addv]
    · simp [addv]
    · simp only [addv, List.zipWith_cons_cons, add_assoc, List.cons.injEq, true_and]; exact ih b c

theorem addv_comm (a b : List (ZMod p)) : addv a b = addv b a := by
  unfold addv; rw [List.zipWith_comm]; congr 1; funext x y; ring

theorem addv_right_comm (a b c : List (ZMod p)) : addv (addv a b) c = addv (addv a c) b := by
  rw [addv_assoc, addv_assoc, addv_comm b]

/-- A variable-length absorb of the first `len` of `R` inputs is a fixed-length absorb of these `len` inputs. -/
theorem absorbVar_sound (R : ℕ) (xs is : List (AV p)) (len : AV p) (cs : List (ZMod p)) (hl : xs.length = cs.length)
    (hx : xs.length = R + 1) (hi : is.length = R) (hR : 1 ≤ R) (hRp : R < p) :
    Sound tbl (absorbVar R xs is len cs) (fun w rs => (at' w len).val ≤ R → rs.map (at' w) =
      addv (addv (xs.map (at' w)) (0 :: padBlock R ((is.map (at' w)).take (at' w len).val))) cs) := by
  intro s
  refine Snd.bindR (addConsts_sound xs cs hl s) (addConsts_ret _ _) fun a s1 _ ha => ?_
  refine Snd.bind (dec_sound _ s1) fun idx s2 _ => ?_
  refine Snd.bind (idxToIndicator_sound _ _ s2) fun ind s3 _ => ?_
  refine Snd.bind (partialSums_sound _ s3) fun mask s4 _ => ?_
  refine Snd.bind (maskBytes_sound _ s4) fun pad s5 _ => ?_
  cases a with
  | nil => exact Snd.panic
  | cons x0 ys =>
    refine Snd.bindR (absorbVarLoop_sound ys (pad.zip ind) s5) (absorbVarLoop_ret _ _) fun zs s6 _ hzs => ?_
    refine (absorbVarEnd_sound _ _ s6).weaken ?_
    rintro w rs _ ⟨y0, y1, us, m0, he, hm0, h⟩ hloop hpad ⟨xs', hxs', hmask⟩ ⟨x', hx', hind⟩ ⟨y', hy', hidx⟩ hadd hlen
    have hy' : y' = at' w len := hy'
    have hx' : x' = at' w idx := hx'
    subst hy'
    rw [hx', hidx, ind_eq hRp] at hind
    have hxs' := QOks_existing hxs'
    have hne : ind.reverse.map (.existing : AV p → QCell p) ≠ [] := by
      intro he
      have : ind = [] := by simpa using he
      rw [this] at hind
      have := congrArg List.length hind
      simp at this; omega
    rw [if_neg hne, hxs', List.map_reverse, hind] at hmask
    have hm : mask.reverse.map (at' w) = _ :=
      (List.map_reverse).trans ((congrArg List.reverse hmask).trans (mask_spec _ _ hlen))
    generalize (at' w len).val = l at *
    have e1 : (is.zip mask.reverse).map (fun e => at' w e.1 * at' w e.2) =
        List.zipWith (· * ·) (is.map (at' w)) (mask.reverse.map (at' w)) := by
      rw [List.zipWith_map, List.zip, List.map_zipWith]
    rw [e1, hm] at hpad
    have lm : mask.length = R := by simpa using congrArg List.length hm
    have lp : pad.length = R := by
      have := congrArg List.length hpad
      simpa [hi] using this
    have li : ind.length = R := by simpa using congrArg List.length hind
    have ly : ys.length = R := by simpa [hx] using ha
    have hloop := hloop (by simp [lp, li, ly])
    have z1 : (pad.zip ind).map (fun e => at' w e.1) = pad.map (at' w) := by
      conv_rhs => rw [← List.map_fst_zip (l₁ := pad) (l₂ := ind) (by omega)]
      rw [List.map_map]; rfl
    have z2 : (pad.zip ind).map (fun e => at' w e.2) = ind.map (at' w) := by
      conv_rhs => rw [← List.map_snd_zip (l₁ := pad) (l₂ := ind) (by omega)]
      rw [List.map_map]; rfl
    rw [z1, z2, hpad, hind] at hloop
    obtain ⟨n, rfl⟩ : ∃ n, R = n + 1 := ⟨R - 1, by omega⟩
    have hm0' : at' w m0 = if 0 < l then 1 else 0 := by
      have h0 : (mask.reverse.map (at' w))[0]? = some (at' w m0) := by rw [List.getElem?_map, hm0]; rfl
      rw [hm] at h0
      simpa using h0.symm
    rw [h]
    -- split the state
    injection he with he1 he2
    subst he1
    rw [List.map_cons] at hadd
    rw [addv_right_comm, ← hadd, ← varBlock_eq n l (is.map (at' w)) (by simpa using hi) hlen]
    have hz : zs.map (at' w) = at' w y1 :: us.map (at' w) := by rw [he2]; rfl
    have : (at' w y1 + (1 - at' w m0)) :: us.map (at' w) =
        addv (zs.map (at' w)) ((1 - at' w m0) :: List.replicate n 0) := by
      rw [hz]
      have : us.length = n := by
        have := congrArg List.length he2
        simp [hzs, ly] at this; omega
      simp only [addv, List.zipWith_cons_cons, List.cons.injEq, true_and]
      refine List.ext_getElem (by simp [this]) fun i h1 h2 => by simp
    rw [this, hloop, hm0', addv_assoc, addv_assoc]
    change _ = (at' w x0 + 0) :: addv _ _
    rw [add_zero]
    congr 2
    congr 1
    have hr : (List.range (n + 1)).map (fun j : ℕ => if j + 1 = l then (1 : ZMod p) else 0) =
        (List.range n).map (fun j : ℕ => if j + 1 = l then (1 : ZMod p) else 0) ++ [if n + 1 = l then 1 else 0] := by
      rw [List.range_succ, List.map_append]; rfl
    rw [hr]
    refine List.ext_getElem (by simp [addv]) fun i h1 h2 => ?_
    rcases i with _ | i
    · simp [addv]
    · have hi : i < n := by simpa using h2
      simp [addv, hi, List.getElem_append]

theorem padInputs_ret (R : ℕ) (is : List (AV p)) : Ret (padInputs R is) (fun rs => rs.length = R) := by
  induction R generalizing is with
  | zero => exact Ret.pure rfl
  | succ R ih =>
    cases is with
    | nil => exact Ret.bind_ fun _ => (ih _).bind fun r h => Ret.pure (by simp [h])
    | cons a is => exact (ih _).bind fun r h => Ret.pure (by simp [h])

theorem padInputs_sound (R : ℕ) (is : List (AV p)) : Sound tbl (padInputs R is) (fun w rs =>
    rs.map (at' w) = (is.map (at' w) ++ List.replicate R 0).take R) := by
  induction R generalizing is with
  | zero => exact fun s => Snd.pure fun w _ => by simp
  | succ R ih =>
    intro s
    cases is with
    | nil =>
      refine Snd.bind (loadZero_sound s) fun z s1 _ => Snd.bind (ih [] s1) fun r s2 _ => Snd.pure ?_
      intro w _ h h2
      rw [List.map_cons, h, h2]
      simp [List.replicate_succ]
    | cons a is =>
      refine Snd.bind (ih is s) fun r s2 _ => Snd.pure ?_
      intro w _ h
      rw [List.map_cons, h]
      simp only [List.map_cons, List.cons_append, List.take_succ_cons, List.cons.injEq, true_and]
      simp only [List.take_append, List.take_replicate]
      congr 2
      simp; omega

/-- One call of `permutation` with a fixed-length block. -/
theorem permutation_sound_none {sp : PSpec p} {T : ℕ} (hs : WFSpec sp T) (R : ℕ) (xs is : List (AV p))
    (hx : xs.length = T) :
    Sound tbl (permutation sp R xs is none) (fun w rs => is.length < T ∧
      rs.map (at' w) = nAbsorbPerm sp (xs.map (at' w)) (is.map (at' w))) := by
  intro s
  refine Snd.unwrap fun c0 h0 => ?_
  have hc : sp.start.headD [] = c0 := by
    cases h : sp.start with
    | nil => simp [h] at h0
    | cons c cs => simpa [h] using h0
  have hcl : c0.length = T := by rw [← hc]; exact hs.startHead
  refine Snd.bindR (absorb_sound xs is c0 (by rw [hx, hcl]) s) (absorb_ret _ _ _) fun a s1 _ ha => Snd.assert fun _ => ?_
  refine (permRounds_sound sp a hs (by rw [ha, hx]) s1).weaken ?_
  rintro w r _ h ⟨h2, h3⟩
  refine ⟨by rw [← hx]; exact h3, ?_⟩
  rw [h, h2, nAbsorbPerm, nPerm, hc, List.length_map]

/-- One call of `permutation` with a variable-length block. -/
theorem permutation_sound_some {sp : PSpec p} {R : ℕ} (hs : WFSpec sp (R + 1)) (hR : 1 ≤ R) (hRp : R < p)
    (xs is : List (AV p)) (len : AV p) (hx : xs.length = R + 1) :
    Sound tbl (permutation sp R xs is (some len)) (fun w rs => (at' w len).val ≤ R →
      rs.map (at' w) = nAbsorbPerm sp (xs.map (at' w))
        ((is.map (at' w) ++ List.replicate R 0).take (at' w len).val)) := by
  intro s
  refine Snd.unwrap fun c0 h0 => ?_
  have hc : sp.start.headD [] = c0 := by
    cases h : sp.start with
    | nil => simp [h] at h0
    | cons c cs => simpa [h] using h0
  have hcl : c0.length = R + 1 := by rw [← hc]; exact hs.startHead
  simp only [bind_assoc]
  refine Snd.bindR (padInputs_sound R is s) (padInputs_ret _ _) fun pd s1 _ hp => ?_
  refine Snd.bindR (absorbVar_sound R xs pd len c0 (by rw [hx, hcl]) hx hp hR hRp s1) (absorbVar_ret _ _ _ _ _)
    fun a s2 _ ha => Snd.assert fun _ => ?_
  refine (permRounds_sound sp a hs (by rw [ha, hx]) s2).weaken ?_
  intro w r _ h h2 h3 hlen
  rw [h, h2 hlen, h3, nAbsorbPerm, nPerm, hc, List.length_map, hx, Nat.add_sub_cancel, List.take_take,
    Nat.min_eq_left hlen]

theorem permutation_ret (sp : PSpec p) (R : ℕ) (xs is : List (AV p)) (len : Option (AV p)) :
    Ret (permutation sp R xs is len) (fun rs => rs.length = sp.mds.length) := by
  refine Ret.bind_ fun _ => ?_
  cases len with
  | none => exact Ret.bind_ fun _ => Ret.bind_ fun _ => permRounds_ret _ _
  | some len => exact Ret.bind_ fun _ => Ret.bind_ fun _ => Ret.bind_ fun _ => permRounds_ret _ _

end H2
