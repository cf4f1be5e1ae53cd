import Verif.Poseidon.SoundHash
import Verif.Range.Complete

/-! # Completeness of the Poseidon chip: honest runs finish, satisfy their constraints and compute the native values -/

set_option autoImplicit false
set_option linter.unusedSectionVars false
namespace H2
variable {p : ℕ} [Fact p.Prime] {tbl : ZMod p → Prop} {L : ℕ} {ext : Cell → ZMod p} {s : Ctx p}

theorem pow5c_cmp {x : AV p} {c v : ZMod p} (h : Con ext s x v) :
    Cmp tbl ext s (pow5c x c) (fun r s' => Con ext s' r (v ^ 5 + c)) := by
  refine Cmp.bind (mul_cmp (a := .existing x) (b := .existing x) h h) fun x2 s1 e1 h2 => ?_
  refine Cmp.bind (mul_cmp (a := .existing x2) (b := .existing x2) h2 h2) fun x4 s2 e2 h4 => ?_
  refine (mulAdd_cmp (a := .existing x) (b := .existing x4) (c := .constant c) ((h.mono e1).mono e2) h4 rfl).weaken ?_
  intro r s3 hr
  convert hr using 1
  ring

theorem sboxFull_cmp {xs : List (AV p)} {vs cs : List (ZMod p)} (h : AvsCon ext s xs vs) (hl : vs.length = cs.length) :
    Cmp tbl ext s (sboxFull xs cs) (fun rs s' => AvsCon ext s' rs (nSbox vs cs)) := by
  induction xs generalizing s vs cs with
  | nil =>
    cases h
    have : cs = [] := by simpa using hl.symm
    subst this
    exact Cmp.pure .nil
  | cons x xs ih =>
    rcases h with _ | @⟨_, v, _, vs, h1, h2⟩
    cases cs with
    | nil => simp at hl
    | cons c cs =>
      refine Cmp.bind (pow5c_cmp h1) fun y s1 e1 hy => ?_
      refine Cmp.bind (ih (s := s1) (AvsCon.mono h2 e1) (by simpa using hl)) fun ys s2 e2 hys => Cmp.pure ?_
      exact .cons (hy.mono e2) hys

theorem sboxPart_cmp {xs : List (AV p)} {vs : List (ZMod p)} {c : ZMod p} (h : AvsCon ext s xs vs) (hl : vs ≠ []) :
    Cmp tbl ext s (sboxPart xs c) (fun rs s' => AvsCon ext s' rs (nSboxPart vs c)) := by
  rcases h with _ | @⟨x, v, xs, vs, h1, h2⟩
  · exact absurd rfl hl
  · refine Cmp.bind (pow5c_cmp h1) fun y s1 e1 hy => Cmp.pure ?_
    exact .cons hy (AvsCon.mono h2 e1)

theorem applyMds_cmp {xs : List (AV p)} {vs : List (ZMod p)} {m : List (List (ZMod p))} (h : AvsCon ext s xs vs)
    (hm : ∀ r ∈ m, r.length = vs.length) :
    Cmp tbl ext s (applyMds xs m) (fun rs s' => AvsCon ext s' rs (nMds m vs)) := by
  induction m generalizing s with
  | nil => exact Cmp.pure .nil
  | cons r m ih =>
    refine Cmp.bind (innerProduct_cmp (QsConT.existing h) (QsConT.constants r)
      (by simp [hm r (by simp), List.Forall₂.length_eq h])) fun y s1 e1 hy => ?_
    refine Cmp.bind (ih (s := s1) (AvsCon.mono h e1) (fun r hr => hm r (by simp [hr]))) fun ys s2 e2 hys => Cmp.pure ?_
    exact .cons (hy.mono e2) hys

theorem sparseTail_cmp {s0 : AV p} {v0 : ZMod p} {xs : List (AV p)} {vs cs : List (ZMod p)} (h0 : Con ext s s0 v0)
    (h : AvsCon ext s xs vs) :
    Cmp tbl ext s (sparseTail s0 cs xs) (fun rs s' => AvsCon ext s' rs (List.zipWith (fun c x => v0 * c + x) cs vs)) := by
  induction cs generalizing s xs vs with
  | nil => rw [List.zipWith_nil_left]; unfold sparseTail; exact Cmp.pure .nil
  | cons c cs ih =>
    rcases h with _ | @⟨x, v, xs, vs, h1, h2⟩
    · rw [List.zipWith_nil_right]; exact Cmp.pure .nil
    · refine Cmp.bind (mulAdd_cmp (a := .existing s0) (b := .constant c) (c := .existing x) h0 rfl h1) fun y s1 e1 hy => ?_
      refine Cmp.bind (ih (s := s1) (h0.mono e1) (AvsCon.mono h2 e1)) fun ys s2 e2 hys => Cmp.pure ?_
      exact .cons (hy.mono e2) hys

theorem applySparse_cmp {xs : List (AV p)} {vs : List (ZMod p)} {m : SparseMDS p} (h : AvsCon ext s xs vs)
    (hm : m.row.length = vs.length) (hne : vs ≠ []) :
    Cmp tbl ext s (applySparse xs m) (fun rs s' => AvsCon ext s' rs (nSparse m vs)) := by
  refine Cmp.bind (innerProduct_cmp (QsConT.existing h) (QsConT.constants m.row)
    (by simp [hm, List.Forall₂.length_eq h])) fun y s1 e1 hy => ?_
  rcases h with _ | @⟨x, v, xs, vs, h1, h2⟩
  · exact absurd rfl hne
  · refine Cmp.unwrap rfl ?_
    refine Cmp.bind (sparseTail_cmp (h1.mono e1) (AvsCon.mono h2 e1)) fun ys s2 e2 hys => Cmp.pure ?_
    exact .cons (hy.mono e2) hys

theorem fullRounds_cmp {mds : List (List (ZMod p))} {cs : List (List (ZMod p))} {xs : List (AV p)} {vs : List (ZMod p)}
    {T : ℕ} (h : AvsCon ext s xs vs) (hx : vs.length = T) (hm : mds.length = T) (hr : ∀ r ∈ mds, r.length = T)
    (hc : ∀ c ∈ cs, c.length = T) :
    Cmp tbl ext s (fullRounds mds cs xs) (fun rs s' => AvsCon ext s' rs (nFull mds cs vs)) := by
  induction cs generalizing s xs vs with
  | nil => exact Cmp.pure h
  | cons c cs ih =>
    have hlc := hc c (by simp)
    refine Cmp.bind (sboxFull_cmp h (by rw [hx, hlc])) fun y s1 e1 hy => ?_
    refine Cmp.bind (applyMds_cmp hy (fun r h => by rw [hr r h, nSbox_length (by rw [hx, hlc]), hx])) fun z s2 e2 hz => ?_
    exact ih (s := s2) hz (by rw [nMds_length, hm]) (fun c h => hc c (by simp [h]))

theorem partRounds_cmp {l : List (ZMod p × SparseMDS p)} {xs : List (AV p)} {vs : List (ZMod p)}
    {T : ℕ} (h : AvsCon ext s xs vs) (hx : vs.length = T) (hT : 1 ≤ T)
    (hl : ∀ e ∈ l, e.2.row.length = T ∧ e.2.colHat.length = T - 1) :
    Cmp tbl ext s (partRounds l xs) (fun rs s' => AvsCon ext s' rs (nPart l vs)) := by
  induction l generalizing s xs vs with
  | nil => exact Cmp.pure h
  | cons e l ih =>
    have he := hl e (by simp)
    have hne : vs ≠ [] := by intro h; simp [h] at hx; omega
    have hl1 : (nSboxPart vs e.1).length = T := by rw [nSboxPart_length, hx]
    refine Cmp.bind (sboxPart_cmp h hne) fun y s1 e1 hy => ?_
    refine Cmp.bind (applySparse_cmp hy (by rw [he.1, hl1]) (by intro h; simp [h] at hl1; omega)) fun z s2 e2 hz => ?_
    exact ih (s := s2) hz (nSparse_length hl1 he.2 hT) (fun c h => hl c (by simp [h]))

theorem permRounds_cmp {sp : PSpec p} {xs : List (AV p)} {vs : List (ZMod p)} {T : ℕ} (hs : WFSpec sp T)
    (h : AvsCon ext s xs vs) (hx : vs.length = T) :
    Cmp tbl ext s (permRounds sp xs) (fun rs s' => AvsCon ext s' rs (nRounds sp vs)) := by
  refine Cmp.bind (fullRounds_cmp h hx hs.mds hs.mdsRow
    (fun c h => hs.start c (List.mem_of_mem_drop (List.mem_of_mem_take h)))) fun a s1 e1 ha => ?_
  have la := nFull_length (mds := sp.mds) (cs := (sp.start.drop 1).take (sp.rF / 2 - 1)) hx hs.mds
  obtain ⟨last, hlast⟩ : ∃ c, sp.start.getLast? = some c :=
    ⟨_, List.getLast?_eq_some_getLast hs.startNe⟩
  have hlast' : sp.start.getLastD [] = last := by rw [List.getLastD_eq_getLast?, hlast]; rfl
  have hll : last.length = T := hs.start _ (List.mem_of_getLast? hlast)
  refine Cmp.unwrap hlast ?_
  refine Cmp.bind (sboxFull_cmp ha (by rw [la, hll])) fun b s2 e2 hb => ?_
  refine Cmp.bind (applyMds_cmp hb (fun r h => by rw [hs.preRow r h, nSbox_length (by rw [la, hll]), la]))
    fun c s3 e3 hc => ?_
  have lc : (nMds sp.preSparse (nSbox (nFull sp.mds ((sp.start.drop 1).take (sp.rF / 2 - 1)) vs) last)).length = T := by
    rw [nMds_length, hs.pre]
  refine Cmp.bind (partRounds_cmp hc lc hs.pos (fun e h => hs.sparse _ (zip_snd_mem h))) fun d s4 e4 hd => ?_
  have ld := nPart_length (l := sp.part.zip sp.sparse) lc hs.pos fun e h => (hs.sparse _ (zip_snd_mem h)).2
  refine Cmp.bind (fullRounds_cmp hd ld hs.mds hs.mdsRow hs.fin) fun e s5 e5 he => ?_
  have le := nFull_length (mds := sp.mds) (cs := sp.fin) ld hs.mds
  rw [List.Forall₂.length_eq he]
  refine Cmp.bind (sboxFull_cmp he (by simp)) fun f s6 e6 hf => ?_
  refine (applyMds_cmp hf (fun r h => by rw [hs.mdsRow r h, nSbox_length (by simp), le])).weaken ?_
  intro r s7 hr
  rw [nRounds, hlast']
  exact hr

theorem absorbRest_cmp {b : Bool} {xs : List (AV p)} {vs cs : List (ZMod p)} (h : AvsCon ext s xs vs)
    (hl : vs.length = cs.length) {n : ℕ} (hn : vs.length ≤ n) :
    Cmp tbl ext s (absorbRest b xs cs) (fun rs s' => AvsCon ext s' rs
      (addv (addv vs ((if b then (1 : ZMod p) else 0) :: List.replicate n 0)) cs)) := by
  induction xs generalizing s vs cs b n with
  | nil => cases h; unfold absorbRest; exact Cmp.pure List.Forall₂.nil
  | cons x xs ih =>
    rcases h with _ | @⟨_, v, _, vs, h1, h2⟩
    cases cs with
    | nil => simp at hl
    | cons c cs =>
      obtain ⟨n, rfl⟩ : ∃ m, n = m + 1 := ⟨n - 1, by simp at hn; omega⟩
      refine Cmp.bind (add_cmp (a := .existing x) (b := .constant _) h1 rfl) fun y s1 e1 hy => ?_
      refine Cmp.bind (ih (s := s1) (b := false) (n := n) (AvsCon.mono h2 e1) (by simpa using hl) (by simpa using hn))
        fun ys s2 e2 hys => Cmp.pure ?_
      simp only [addv, List.zipWith_cons_cons, List.replicate_succ, Bool.false_eq_true, if_false] at hys ⊢
      refine .cons ?_ hys
      have := hy.mono e2
      cases b
      · simpa using this
      · simp only [if_true] at this ⊢
        convert this using 1
        ring

theorem absorbTail_cmp {xs is : List (AV p)} {vs cs us : List (ZMod p)} (h : AvsCon ext s xs vs)
    (hu : AvsCon ext s is us) (hl : vs.length = cs.length) {n : ℕ} (hn : vs.length ≤ n) :
    Cmp tbl ext s (absorbTail xs cs is) (fun rs s' => AvsCon ext s' rs
      (addv (addv vs (us ++ 1 :: List.replicate n 0)) cs)) := by
  induction xs generalizing s vs cs is us with
  | nil =>
    cases h
    unfold absorbTail
    refine (absorbRest_cmp (b := true) (n := n) (xs := []) (vs := []) .nil hl hn).weaken ?_
    intro r s' hr
    simpa [addv] using hr
  | cons x xs ih =>
    rcases h with _ | @⟨_, v, _, vs, h1, h2⟩
    cases cs with
    | nil => simp at hl
    | cons c cs =>
      rcases hu with _ | @⟨i, u, is, us, u1, u2⟩
      · exact absorbRest_cmp (b := true) (.cons h1 h2) hl hn
      · have hq : QsConT ext s [.existing x, .existing i, .constant c] [v, u, c] := .cons h1 (.cons u1 (.cons rfl .nil))
        refine Cmp.bind (sum_cmp hq) fun y s1 e1 hy => ?_
        refine Cmp.bind (ih (s := s1) (AvsCon.mono h2 e1) (AvsCon.mono u2 e1) (by simpa using hl) (by simp at hn; omega))
          fun ys s2 e2 hys => Cmp.pure ?_
        refine .cons ?_ hys
        have := hy.mono e2
        simpa [add_assoc] using this

theorem absorb_cmp {xs is : List (AV p)} {vs cs us : List (ZMod p)} (h : AvsCon ext s xs vs)
    (hu : AvsCon ext s is us) (hl : vs.length = cs.length) (hlt : us.length < vs.length) :
    Cmp tbl ext s (absorb xs is cs) (fun rs s' => AvsCon ext s' rs
      (addv (addv vs (0 :: padBlock (vs.length - 1) us)) cs)) := by
  refine Cmp.assert (by rw [List.Forall₂.length_eq h, List.Forall₂.length_eq hu]; simpa using hlt) ?_
  rcases h with _ | @⟨x, v, xs, vs, h1, h2⟩
  · simp at hlt
  · cases cs with
    | nil => simp at hl
    | cons c cs =>
      refine Cmp.bind (add_cmp (a := .existing x) (b := .constant c) h1 rfl) fun y s1 e1 hy => ?_
      refine Cmp.bind (absorbTail_cmp (n := vs.length) (AvsCon.mono h2 e1) (AvsCon.mono hu e1) (by simpa using hl) le_rfl)
        fun ys s2 e2 hys => Cmp.pure ?_
      have e := addv_take vs (us ++ 1 :: List.replicate vs.length 0)
      refine .cons (b := v + 0 + c) (by simpa using hy.mono e2) ?_
      simp only [padBlock, List.length_cons, Nat.add_sub_cancel]
      have : List.zipWith (· + ·) vs ((us ++ 1 :: List.replicate vs.length 0).take vs.length) =
        addv vs (us ++ 1 :: List.replicate vs.length 0) := e
      rw [this]
      exact hys

theorem addConsts_cmp {xs : List (AV p)} {vs cs : List (ZMod p)} (h : AvsCon ext s xs vs) (hl : vs.length = cs.length) :
    Cmp tbl ext s (addConsts xs cs) (fun rs s' => AvsCon ext s' rs (addv vs cs)) := by
  induction xs generalizing s vs cs with
  | nil =>
    cases h
    have : cs = [] := by simpa using hl.symm
    subst this
    exact Cmp.pure .nil
  | cons x xs ih =>
    rcases h with _ | @⟨_, v, _, vs, h1, h2⟩
    cases cs with
    | nil => simp at hl
    | cons c cs =>
      refine Cmp.bind (add_cmp (a := .existing x) (b := .constant c) h1 rfl) fun y s1 e1 hy => ?_
      refine Cmp.bind (ih (s := s1) (AvsCon.mono h2 e1) (by simpa using hl)) fun ys s2 e2 hys => Cmp.pure ?_
      exact .cons (hy.mono e2) hys

theorem absorbVarLoop_cmp {xs : List (AV p)} {vs : List (ZMod p)} {l : List (AV p × AV p)} {us : List (ZMod p × ZMod p)}
    (h : AvsCon ext s xs vs) (hu : List.Forall₂ (fun e u => Con ext s e.1 u.1 ∧ Con ext s e.2 u.2) l us)
    (hl : vs.length = us.length) :
    Cmp tbl ext s (absorbVarLoop xs l) (fun rs s' => AvsCon ext s' rs
      (addv (addv vs (us.map Prod.fst)) (0 :: us.map Prod.snd))) := by
  induction l generalizing s xs vs us with
  | nil =>
    cases hu
    have : vs = [] := by simpa using hl
    subst this
    cases h
    unfold absorbVarLoop; exact Cmp.pure .nil
  | cons e l ih =>
    obtain ⟨pd, ind⟩ := e
    rcases hu with _ | @⟨_, ⟨u1, u2⟩, _, us, ⟨hu1, hu2⟩, hu⟩
    rcases h with _ | @⟨x, v, _, _, h1, _ | @⟨y, v2, xs, vs, h2, h3⟩⟩
    · simp at hl
    · have : us = [] := by simpa using hl.symm
      subst this
      cases hu
      refine Cmp.bind (add_cmp (a := .existing x) (b := .existing pd) h1 hu1) fun x' s1 e1 hx' => ?_
      unfold absorbVarLoop
      refine Cmp.pure ?_
      simp only [addv, List.map_cons, List.map_nil, List.zipWith_cons_cons, List.zipWith_nil_left]
      exact .cons (by simpa using hx') .nil
    · refine Cmp.bind (add_cmp (a := .existing x) (b := .existing pd) h1 hu1) fun x' s1 e1 hx' => ?_
      refine Cmp.bind (add_cmp (a := .existing y) (b := .existing ind) (Con.mono h2 e1) (Con.mono hu2 e1)) fun y' s2 e2 hy' => ?_
      refine Cmp.bind (ih (s := s2) (.cons hy' (AvsCon.mono (AvsCon.mono h3 e1) e2))
        (hu.imp fun _ _ h => ⟨(h.1.mono e1).mono e2, (h.2.mono e1).mono e2⟩) (by simpa using hl)) fun r s3 e3 hr => Cmp.pure ?_
      have hx'' := (hx'.mono e2).mono e3
      refine .cons (b := v + u1 + 0) (by simpa using hx'') ?_
      rcases us with _ | ⟨⟨u3, u4⟩, us⟩
      · simp at hl
      · simp only [addv, List.map_cons, List.zipWith_cons_cons] at hr ⊢
        have e0 : v2 + u2 + u3 + 0 = v2 + u3 + u2 := by ring
        rw [e0] at hr
        exact hr

theorem absorbVarEnd_cmp {x0 x1 m0 : AV p} {v0 v1 u0 : ZMod p} {ys mask : List (AV p)} {vs : List (ZMod p)}
    (h0 : Con ext s x0 v0) (h1 : Con ext s x1 v1) (h : AvsCon ext s ys vs) (hm : mask[0]? = some m0)
    (hu : Con ext s m0 u0) :
    Cmp tbl ext s (absorbVarEnd (x0 :: x1 :: ys) mask) (fun rs s' => AvsCon ext s' rs (v0 :: (v1 + (1 - u0)) :: vs)) := by
  refine Cmp.unwrap hm ?_
  refine Cmp.bind (not_cmp (a := .existing m0) hu) fun e s1 e1 he => ?_
  refine Cmp.bind (add_cmp (a := .existing x1) (b := .existing e) (h1.mono e1) he) fun y s2 e2 hy => Cmp.pure ?_
  exact .cons ((h0.mono e1).mono e2) (.cons hy (AvsCon.mono (AvsCon.mono h e1) e2))

/-- The shift identity behind the variable-length absorb. -/
theorem varShift_eq (n l : ℕ) (zs pad : List (ZMod p)) (hz : zs.length = n + 1) (hp : pad.length = n + 1) :
    addv (addv (addv zs pad) (0 :: (List.range (n + 1)).map (fun j : ℕ => if j + 1 = l then (1 : ZMod p) else 0)))
      (((1 : ZMod p) - (if 0 < l then 1 else 0)) :: List.replicate n 0) =
    addv zs (addv pad (((1 : ZMod p) - (if 0 < l then 1 else 0)) ::
        (List.range n).map (fun j : ℕ => if j + 1 = l then (1 : ZMod p) else 0))) := by
  rw [addv_assoc, addv_assoc]
  congr 2
  have hr : (List.range (n + 1)).map (fun j : ℕ => if j + 1 = l then (1 : ZMod p) else 0) =
      (List.range n).map (fun j : ℕ => if j + 1 = l then (1 : ZMod p) else 0) ++ [if n + 1 = l then 1 else 0] := by
    rw [List.range_succ, List.map_append]; rfl
  rw [hr]
  refine List.ext_getElem (by simp [addv]) fun i h1 h2 => ?_
  rcases i with _ | i
  · simp [addv]
  · have hi : i < n := by simpa using h2
    simp [addv, hi]

theorem absorbVar_cmp {R : ℕ} {xs is : List (AV p)} {vs cs us : List (ZMod p)} {len : AV p} {l : ℕ}
    (h : AvsCon ext s xs vs) (hu : AvsCon ext s is us) (hlen : Con ext s len ((l : ℕ) : ZMod p))
    (hl : vs.length = cs.length) (hx : vs.length = R + 1) (hi : us.length = R) (hR : 1 ≤ R) (hRp : R < p) (hlR : l ≤ R) :
    Cmp tbl ext s (absorbVar R xs is len cs) (fun rs s' => AvsCon ext s' rs
      (addv (addv vs (0 :: padBlock R (us.take l))) cs)) := by
  refine Cmp.bind (addConsts_cmp h hl) fun a s1 e1 ha => ?_
  refine Cmp.bind (dec_cmp (a := .existing len) (hlen.mono e1)) fun idx s2 e2 hidx => ?_
  refine Cmp.bind (idxToIndicator_cmp (idx := .existing idx) (len := R) hidx) fun ind s3 e3 hind => ?_
  rw [ind_eq hRp, ZMod.val_natCast_of_lt (by omega)] at hind
  refine Cmp.bind (partialSums_cmp (QsConT.existing (AvsCon.reverse hind))) fun mask s4 e4 hmask => ?_
  have li : ind.length = R := by rw [List.Forall₂.length_eq hind]; simp
  have hne : ind.reverse.map (.existing : AV p → QCell p) ≠ [] := by
    intro he
    have : ind = [] := by simpa using he
    rw [this] at li; simp at li; omega
  rw [if_neg hne] at hmask
  have hm := AvsCon.reverse hmask
  rw [mask_spec _ _ hlR] at hm
  have hzip := avs_zip (AvsCon.mono (AvsCon.mono (AvsCon.mono (AvsCon.mono hu e1) e2) e3) e4) hm
  refine Cmp.bind (maskBytes_cmp hzip) fun pad s5 e5 hpad => ?_
  have hpv : (us.zip ((List.range R).map (fun i : ℕ => if i < l then (1 : ZMod p) else 0))).map (fun u => u.1 * u.2) =
      List.zipWith (· * ·) us ((List.range R).map (fun i : ℕ => if i < l then (1 : ZMod p) else 0)) := by
    rw [List.zip, List.map_zipWith]
  rw [hpv] at hpad
  have ha' := AvsCon.mono (AvsCon.mono (AvsCon.mono (AvsCon.mono ha e2) e3) e4) e5
  have hind' := AvsCon.mono (AvsCon.mono hind e4) e5
  have hm' := AvsCon.mono hm e5
  obtain ⟨n, rfl⟩ : ∃ n, R = n + 1 := ⟨R - 1, by omega⟩
  obtain ⟨v0, vs, rfl⟩ : ∃ v0 vs', vs = v0 :: vs' := by
    cases vs with
    | nil => simp at hx
    | cons v vs => exact ⟨v, vs, rfl⟩
  obtain ⟨c0, cs, rfl⟩ : ∃ c0 cs', cs = c0 :: cs' := by
    cases cs with
    | nil => simp at hl
    | cons v vs => exact ⟨v, vs, rfl⟩
  have hl' : vs.length = cs.length := by simpa using hl
  have hx' : vs.length = n + 1 := by simpa using hx
  change AvsCon ext s5 a ((v0 + c0) :: addv vs cs) at ha'
  rcases ha' with _ | @⟨x0, _, ys, _, ha0, hay⟩
  have lpad : (List.zipWith (· * ·) us ((List.range (n + 1)).map (fun i : ℕ => if i < l then (1 : ZMod p) else 0))).length = n + 1 := by
    simp [hi]
  generalize hpd : List.zipWith (· * ·) us ((List.range (n + 1)).map (fun i : ℕ => if i < l then (1 : ZMod p) else 0)) = pv at *
  have hz2 := avs_zip hpad hind'
  have lz : (addv vs cs).length = n + 1 := by rw [addv_length hl', hx']
  refine Cmp.bind (absorbVarLoop_cmp hay hz2 (by simp [lz, lpad])) fun zs s6 e6 hzs => ?_
  rw [List.map_fst_zip (by simp [lpad]), List.map_snd_zip (by simp [lpad])] at hzs
  have hm0 : ∃ m0, mask.reverse[0]? = some m0 ∧ Con ext s6 m0 (if 0 < l then 1 else 0) := by
    rw [List.range_succ_eq_map, List.map_cons] at hm'
    generalize mask.reverse = mr at hm'
    rcases hm' with _ | @⟨m0, _, ms, _, h1, _⟩
    exact ⟨m0, rfl, h1.mono e6⟩
  obtain ⟨m0, hm0, hc0⟩ := hm0
  have lzs : zs.length = n + 1 := by
    rw [List.Forall₂.length_eq hzs]
    simp [addv, lpad, hx', ← hl']
  generalize hfin : addv (addv (addv vs cs) pv) (0 :: (List.range (n + 1)).map (fun j : ℕ => if j + 1 = l then (1 : ZMod p) else 0)) = fv at hzs
  rcases hzs with _ | @⟨y1, f1, us', fs, hy1, hus⟩
  · simp at lzs
  refine (absorbVarEnd_cmp (ha0.mono e6) hy1 hus hm0 hc0).weaken ?_
  intro r s7 hr
  rw [addv_right_comm, ← varBlock_eq n l us hi hlR, hpd]
  change AvsCon ext s7 r ((v0 + c0 + 0) :: addv (addv vs cs) _)
  rw [add_zero, ← varShift_eq n l (addv vs cs) pv lz lpad, hfin]
  have lfs : fs.length = n := by
    have := List.Forall₂.length_eq hus
    simp at lzs; omega
  have e0 : addv (f1 :: fs) ((1 - if 0 < l then (1 : ZMod p) else 0) :: List.replicate n 0) =
      (f1 + (1 - if 0 < l then (1 : ZMod p) else 0)) :: fs := by
    simp only [addv, List.zipWith_cons_cons, List.cons.injEq, true_and]
    refine List.ext_getElem (by simp [lfs]) fun i h1 h2 => by simp
  rw [e0]
  exact hr

theorem padInputs_cmp {R : ℕ} {is : List (AV p)} {us : List (ZMod p)} (hu : AvsCon ext s is us) :
    Cmp tbl ext s (padInputs R is) (fun rs s' => AvsCon ext s' rs ((us ++ List.replicate R 0).take R)) := by
  induction R generalizing s is us with
  | zero => unfold padInputs; exact Cmp.pure (by rw [List.take_zero]; exact List.Forall₂.nil)
  | succ R ih =>
    rcases hu with _ | @⟨i, u, is, us, h1, h2⟩
    · refine Cmp.bind loadZero_cmp fun z s1 e1 hz => Cmp.bind (ih (s := s1) (is := []) (us := []) .nil) fun r s2 e2 hr => Cmp.pure ?_
      simp only [List.nil_append, List.replicate_succ, List.take_succ_cons] at hr ⊢
      exact .cons (hz.mono e2) hr
    · refine Cmp.bind (ih (s := s) h2) fun r s2 e2 hr => Cmp.pure ?_
      refine .cons (Con.mono h1 e2) ?_
      have : (us.append (List.replicate (R + 1) (0 : ZMod p))).take R = (us ++ List.replicate R 0).take R := by
        change (us ++ List.replicate (R + 1) (0 : ZMod p)).take R = _
        simp only [List.take_append, List.take_replicate]
        congr 2
        omega
      rw [this]
      exact hr

theorem permutation_cmp_none {sp : PSpec p} {T : ℕ} (hs : WFSpec sp T) {R : ℕ} {xs is : List (AV p)}
    {vs us : List (ZMod p)} (h : AvsCon ext s xs vs) (hu : AvsCon ext s is us) (hx : vs.length = T)
    (hlt : us.length < T) :
    Cmp tbl ext s (permutation sp R xs is none) (fun rs s' => AvsCon ext s' rs (nAbsorbPerm sp vs us)) := by
  have hh := hs.startHead
  obtain ⟨c0, hc⟩ : ∃ c, sp.start[0]? = some c ∧ sp.start.headD [] = c := by
    cases h : sp.start with
    | nil => exact absurd h hs.startNe
    | cons c cs => exact ⟨c, rfl, rfl⟩
  rw [hc.2] at hh
  refine Cmp.unwrap hc.1 ?_
  refine Cmp.bind (absorb_cmp h hu (by rw [hx, hh]) (by omega)) fun a s1 e1 ha => Cmp.assert (by simpa using hs.rF) ?_
  have e0 : nAbsorbPerm sp vs us = nRounds sp (addv (addv vs (0 :: padBlock (vs.length - 1) us)) c0) := by
    rw [nAbsorbPerm, nPerm, hc.2]
  rw [e0]
  refine permRounds_cmp hs ha ?_
  rw [addv_length, addv_length, hx]
  · simp [padBlock_length, hx]; have := hs.pos; omega
  · rw [addv_length, hx, hh]; simp [padBlock_length, hx]; have := hs.pos; omega

theorem permutation_cmp_some {sp : PSpec p} {R : ℕ} (hs : WFSpec sp (R + 1)) (hR : 1 ≤ R) (hRp : R < p)
    {xs is : List (AV p)} {vs us : List (ZMod p)} {len : AV p} {l : ℕ} (h : AvsCon ext s xs vs)
    (hu : AvsCon ext s is us) (hlen : Con ext s len ((l : ℕ) : ZMod p)) (hx : vs.length = R + 1) (hlR : l ≤ R) :
    Cmp tbl ext s (permutation sp R xs is (some len)) (fun rs s' => AvsCon ext s' rs
      (nAbsorbPerm sp vs ((us ++ List.replicate R 0).take l))) := by
  have hh := hs.startHead
  obtain ⟨c0, hc⟩ : ∃ c, sp.start[0]? = some c ∧ sp.start.headD [] = c := by
    cases h : sp.start with
    | nil => exact absurd h hs.startNe
    | cons c cs => exact ⟨c, rfl, rfl⟩
  rw [hc.2] at hh
  refine Cmp.unwrap hc.1 ?_
  refine Cmp.bind (padInputs_cmp (R := R) hu) fun pd s1 e1 hp => ?_
  refine Cmp.bind (absorbVar_cmp (R := R) (AvsCon.mono h e1) hp (hlen.mono e1) (by rw [hx, hh]) hx (by simp) hR hRp hlR)
    fun a s2 e2 ha => Cmp.assert (by simpa using hs.rF) ?_
  have e0 : nAbsorbPerm sp vs ((us ++ List.replicate R 0).take l) =
      nRounds sp (addv (addv vs (0 :: padBlock R (((us ++ List.replicate R 0).take R).take l))) c0) := by
    rw [nAbsorbPerm, nPerm, hc.2, hx, Nat.add_sub_cancel, List.take_take, Nat.min_eq_left hlR]
  rw [e0]
  refine permRounds_cmp hs ha ?_
  rw [addv_length, addv_length, hx]
  · simp [padBlock_length, hx]
  · rw [addv_length, hx, hh]; simp [padBlock_length, hx]

/-! ### hashers -/

theorem pDefault_cmp {T : ℕ} (hT : 1 ≤ T) :
    Cmp tbl ext s (pDefault T) (fun rs s' => AvsCon ext s' rs (spongeInit (T - 1))) :=
  Cmp.assert (decide_eq_true (by omega)) (loadConstants_cmp _)

theorem absorbChunks_cmp {sp : PSpec p} {T R : ℕ} (hs : WFSpec sp T) {cs : List (List (AV p))}
    {us : List (List (ZMod p))} {xs : List (AV p)} {vs : List (ZMod p)} (h : AvsCon ext s xs vs)
    (hu : List.Forall₂ (AvsCon ext s) cs us) (hx : vs.length = T) (hlt : ∀ u ∈ us, u.length < T) :
    Cmp tbl ext s (absorbChunks sp R cs xs) (fun rs s' => AvsCon ext s' rs (us.foldl (nAbsorbPerm sp) vs)) := by
  induction cs generalizing s us xs vs with
  | nil => cases hu; exact Cmp.pure h
  | cons c cs ih =>
    rcases hu with _ | @⟨_, u, _, us, h1, h2⟩
    refine Cmp.bind (permutation_cmp_none hs h h1 hx (hlt u (by simp))) fun y s1 e1 hy => ?_
    exact ih (s := s1) (vs := nAbsorbPerm sp vs u) hy (h2.imp fun _ _ h => AvsCon.mono h e1) (nAbsorbPerm_length hs _ _)
      (fun u h => hlt u (by simp [h]))

theorem squeezeEnd_cmp {sp : PSpec p} {T R n : ℕ} (hs : WFSpec sp T) {xs : List (AV p)} {vs : List (ZMod p)}
    (h : AvsCon ext s xs vs) (hx : vs.length = T) :
    Cmp tbl ext s (squeezeEnd sp R n xs) (fun rs s' => AvsCon ext s' rs
      (if n % R = 0 then nAbsorbPerm sp vs [] else vs)) := by
  unfold squeezeEnd
  by_cases hn : n % R = 0
  · simp only [if_pos hn]
    exact permutation_cmp_none hs h .nil hx hs.pos
  · simp only [if_neg hn]
    exact Cmp.pure h

theorem AvsCon.getD {as : List (AV p)} {xs : List (ZMod p)} (h : AvsCon ext s as xs) {i : ℕ} (hi : i < xs.length) :
    ∃ a, as[i]? = some a ∧ Con ext s a (xs.getD i 0) := by
  induction as generalizing xs i with
  | nil => cases h; simp at hi
  | cons a as ih =>
    rcases h with _ | @⟨_, v, _, vs, h1, h2⟩
    cases i with
    | zero => exact ⟨a, rfl, h1⟩
    | succ i =>
      obtain ⟨b, hb, hc⟩ := ih h2 (i := i) (by simpa using hi)
      exact ⟨b, by simpa using hb, by simpa using hc⟩

theorem fixLenSqueeze_cmp {sp : PSpec p} {R : ℕ} (hs : WFSpec sp (R + 1)) (hR : 1 ≤ R) {is xs : List (AV p)}
    {us vs : List (ZMod p)} (h : AvsCon ext s xs vs) (hu : AvsCon ext s is us) (hx : vs.length = R + 1) :
    Cmp tbl ext s (fixLenSqueeze sp R is xs) (fun r s' =>
      AvsCon ext s' r.1 (spongeAbsorb (nPerm sp) R vs us) ∧
      Con ext s' r.2 ((spongeAbsorb (nPerm sp) R vs us).getD 1 0)) := by
  refine Cmp.assert (decide_eq_true (by omega)) ?_
  refine Cmp.bind (absorbChunks_cmp hs h (chunksOf_forall₂ R hu) hx
    (fun u h => Nat.lt_succ_of_le ((chunksOf_spec hR us).1 u h))) fun a s1 e1 ha => ?_
  refine Cmp.bind (squeezeEnd_cmp (R := R) (n := is.length) hs ha (foldl_absorb_length hs _ hx)) fun b s2 e2 hb => ?_
  rw [List.Forall₂.length_eq hu, ← spongeAbsorb_eq hR hs _ _ hx] at hb
  obtain ⟨r, hr1, hr2⟩ := AvsCon.getD hb (i := 1) (by rw [spongeAbsorb_length hR hs _ _ hx]; omega)
  exact Cmp.unwrap hr1 (Cmp.pure ⟨hb, hr2⟩)

/-- A hasher whose cells hold the right values in the honest run. -/
def HasherCon (sp : PSpec p) (R : ℕ) (ext : Cell → ZMod p) (s : Ctx p) (h : Hasher p) : Prop :=
  AvsCon ext s h.initState (spongeInit R) ∧ Con ext s h.emptyHash (spongeHash (nPerm sp) R []) ∧ h.spec = sp

theorem HasherCon.mono {sp : PSpec p} {R : ℕ} {s s' : Ctx p} {h : Hasher p} (k : HasherCon sp R ext s h)
    (e : Ext s s') : HasherCon sp R ext s' h := ⟨AvsCon.mono k.1 e, k.2.1.mono e, k.2.2⟩

theorem Hasher.init_cmp {sp : PSpec p} {R : ℕ} (hs : WFSpec sp (R + 1)) (hR : 1 ≤ R) :
    Cmp tbl ext s (Hasher.init sp (R + 1) R) (fun h s' => HasherCon sp R ext s' h) := by
  refine Cmp.bind (pDefault_cmp (by omega)) fun a s1 e1 ha => ?_
  rw [Nat.add_sub_cancel] at ha
  refine Cmp.bind (fixLenSqueeze_cmp hs hR (is := []) (us := []) ha .nil (spongeInit_length R)) fun r s2 e2 hr => Cmp.pure ?_
  exact ⟨AvsCon.mono ha e2, hr.2, rfl⟩

theorem Hasher.hashFixLen_cmp {sp : PSpec p} {h : Hasher p} {R : ℕ} (hs : WFSpec sp (R + 1)) (hR : 1 ≤ R)
    (hc : HasherCon sp R ext s h) {is : List (AV p)} {us : List (ZMod p)} (hu : AvsCon ext s is us) :
    Cmp tbl ext s (h.hashFixLen R is) (fun r s' => Con ext s' r (spongeHash (nPerm sp) R us)) := by
  obtain ⟨h1, -, h3⟩ := hc
  unfold Hasher.hashFixLen
  rw [h3]
  refine Cmp.bind (fixLenSqueeze_cmp hs hR h1 hu (spongeInit_length R)) fun r s2 e2 hr => Cmp.pure ?_
  exact hr.2

theorem stateSelect_cmp {sel : AV p} {b : Bool} {xs ts : List (AV p)} {vs us : List (ZMod p)}
    (hb : Con ext s sel (if b then 1 else 0)) (h : AvsCon ext s xs vs) (ht : AvsCon ext s ts us)
    (hl : vs.length = us.length) :
    Cmp tbl ext s (stateSelect sel xs ts) (fun rs s' => AvsCon ext s' rs (if b then us else vs)) := by
  induction xs generalizing s ts vs us with
  | nil =>
    cases h
    have : us = [] := by simpa using hl.symm
    subst this
    cases ht
    unfold stateSelect
    exact Cmp.pure (by cases b <;> exact .nil)
  | cons x xs ih =>
    rcases h with _ | @⟨_, v, _, vs, h1, h2⟩
    rcases ht with _ | @⟨t, u, ts, us, t1, t2⟩
    · simp at hl
    refine Cmp.bind (select_cmp (a := .existing t) (b := .existing x) (c := .existing sel) t1 h1 hb) fun y s1 e1 hy => ?_
    refine Cmp.bind (ih (s := s1) (hb.mono e1) (AvsCon.mono h2 e1) (AvsCon.mono t2 e1) (by simpa using hl)) fun ys s2 e2 hys =>
      Cmp.pure ?_
    have hy' := hy.mono e2
    cases b
    · simp only [Bool.false_eq_true, if_false, mul_zero, zero_add] at hy' hys ⊢
      exact .cons hy' hys
    · simp only [if_true, mul_one, sub_add_cancel] at hy' hys ⊢
      exact .cons hy' hys

theorem if_decide_eq {c : Prop} [Decidable c] {α : Type} (a b : α) : (if decide c = true then a else b) = if c then a else b := by
  by_cases h : c <;> simp [h]

theorem varLenStep_cmp {sp : PSpec p} {R : ℕ} (hs : WFSpec sp (R + 1)) (hR : 1 ≤ R) (hRp : R < p)
    {np ll : AV p} {i q r : ℕ} {c st res : List (AV p)} {cv sv rv : List (ZMod p)}
    (hnp : Con ext s np ((q + 1 : ℕ) : ZMod p)) (hll : Con ext s ll ((r : ℕ) : ZMod p))
    (hc : AvsCon ext s c cv) (hst : AvsCon ext s st sv) (hres : AvsCon ext s res rv)
    (lst : sv.length = R + 1) (lres : rv.length = R + 1) (hr : r < R) (hi : i + 1 < p) (hq : q + 1 < p) :
    Cmp tbl ext s (varLenStep sp R np ll i c st res) (fun e s' =>
      AvsCon ext s' e.1 (nVarStep sp R q r i cv sv rv).1 ∧ AvsCon ext s' e.2 (nVarStep sp R q r i cv sv rv).2) := by
  refine Cmp.bind (isEqual_cmp (a := .existing np) (b := .constant _) hnp rfl) fun il s1 e1 hil => ?_
  have hiff : ((q + 1 : ℕ) : ZMod p) = ((i + 1 : ℕ) : ZMod p) ↔ i = q := by
    rw [natCast_iff_of_lt hq hi]; omega
  rw [if_congr hiff rfl rfl] at hil
  refine Cmp.bind (select_cmp (a := .existing ll) (b := .constant _) (c := .existing il) (hll.mono e1) rfl hil) fun lc s2 e2 hlc => ?_
  have hlc' : Con ext s2 lc (((if i = q then r else R) : ℕ) : ZMod p) := by
    convert hlc using 1
    by_cases h : i = q <;> simp [h]
  refine Cmp.bind (permutation_cmp_some hs hR hRp (AvsCon.mono (AvsCon.mono hst e1) e2) (AvsCon.mono (AvsCon.mono hc e1) e2) hlc' lst
    (by split <;> omega)) fun st' s3 e3 hst' => ?_
  refine Cmp.bind (stateSelect_cmp (b := decide (i = q)) (by rw [if_decide_eq]; exact (hil.mono e2).mono e3)
    (AvsCon.mono (AvsCon.mono (AvsCon.mono hres e1) e2) e3) hst' (by rw [lres, nAbsorbPerm_length hs])) fun res' s4 e4 hres' => Cmp.pure ?_
  rw [if_decide_eq] at hres'
  exact ⟨AvsCon.mono hst' e4, hres'⟩

theorem nVarStep_length {sp : PSpec p} {T R q r i : ℕ} (hs : WFSpec sp T) (c st res : List (ZMod p)) (hres : res.length = T) :
    (nVarStep sp R q r i c st res).1.length = T ∧ (nVarStep sp R q r i c st res).2.length = T := by
  unfold nVarStep
  refine ⟨nAbsorbPerm_length hs _ _, ?_⟩
  dsimp only
  split
  · exact nAbsorbPerm_length hs _ _
  · exact hres

theorem nVarLoop_length {sp : PSpec p} {T R q r i : ℕ} (hs : WFSpec sp T) (cs : List (List (ZMod p))) (st res : List (ZMod p))
    (hst : st.length = T) (hres : res.length = T) :
    (nVarLoop sp R q r i cs st res).1.length = T ∧ (nVarLoop sp R q r i cs st res).2.length = T := by
  induction cs generalizing i st res with
  | nil => exact ⟨hst, hres⟩
  | cons c cs ih => exact ih _ _ (nVarStep_length hs c st res hres).1 (nVarStep_length hs c st res hres).2

theorem varLenLoop_cmp {sp : PSpec p} {R : ℕ} (hs : WFSpec sp (R + 1)) (hR : 1 ≤ R) (hRp : R < p)
    {np ll : AV p} {i q r : ℕ} {cs : List (List (AV p))} {st res : List (AV p)} {cv : List (List (ZMod p))} {sv rv : List (ZMod p)}
    (hnp : Con ext s np ((q + 1 : ℕ) : ZMod p)) (hll : Con ext s ll ((r : ℕ) : ZMod p))
    (hc : List.Forall₂ (AvsCon ext s) cs cv) (hst : AvsCon ext s st sv) (hres : AvsCon ext s res rv)
    (lst : sv.length = R + 1) (lres : rv.length = R + 1) (hr : r < R) (hi : i + cs.length < p) (hq : q + 1 < p) :
    Cmp tbl ext s (varLenLoop sp R np ll i cs st res) (fun e s' =>
      AvsCon ext s' e.1 (nVarLoop sp R q r i cv sv rv).1 ∧ AvsCon ext s' e.2 (nVarLoop sp R q r i cv sv rv).2) := by
  induction cs generalizing s i st res cv sv rv with
  | nil => cases hc; exact Cmp.pure ⟨hst, hres⟩
  | cons c cs ih =>
    rcases hc with _ | @⟨_, v, _, cv, h1, h2⟩
    refine Cmp.bind (varLenStep_cmp hs hR hRp (i := i) hnp hll h1 hst hres lst lres hr (by simp at hi; omega) hq) fun e s1 e1 he => ?_
    have hl := nVarStep_length (R := R) (q := q) (r := r) (i := i) hs v sv rv lres
    exact ih (s := s1) (i := i + 1) (hnp.mono e1) (hll.mono e1) (h2.imp fun _ _ h => AvsCon.mono h e1) he.1 he.2
      hl.1 hl.2 (by simp at hi; omega)

theorem varLenExtra_cmp {sp : PSpec p} {R : ℕ} (hs : WFSpec sp (R + 1)) (hR : 1 ≤ R) (hRp : R < p)
    {np : AV p} {m q : ℕ} {st res : List (AV p)} {sv rv : List (ZMod p)}
    (hnp : Con ext s np ((q + 1 : ℕ) : ZMod p)) (hst : AvsCon ext s st sv) (hres : AvsCon ext s res rv)
    (lst : sv.length = R + 1) (lres : rv.length = R + 1) (hi : m / R + 1 < p) (hq : q + 1 < p) :
    Cmp tbl ext s (varLenExtra sp R np m st res) (fun e s' => AvsCon ext s' e
      (if m % R = 0 then (if q = m / R then nAbsorbPerm sp sv [] else rv) else rv)) := by
  unfold varLenExtra
  by_cases hm : m % R = 0
  · simp only [if_pos hm]
    refine Cmp.bind (isEqual_cmp (a := .existing np) (b := .constant _) hnp rfl) fun il s1 e1 hil => ?_
    refine Cmp.bind loadZero_cmp fun lc s2 e2 hlc => ?_
    refine Cmp.bind (permutation_cmp_some hs hR hRp (l := 0) (is := []) (us := []) (AvsCon.mono (AvsCon.mono hst e1) e2) .nil (by simpa using hlc) lst
      (by omega)) fun st' s3 e3 hst' => ?_
    rw [List.take_zero] at hst'
    have hiff : ((q + 1 : ℕ) : ZMod p) = ((m / R + 1 : ℕ) : ZMod p) ↔ q = m / R := by
      rw [natCast_iff_of_lt hq hi]; omega
    rw [if_congr hiff rfl rfl] at hil
    refine (stateSelect_cmp (b := decide (q = m / R)) (by rw [if_decide_eq]; exact (hil.mono e2).mono e3)
      (AvsCon.mono (AvsCon.mono (AvsCon.mono hres e1) e2) e3) hst' (by rw [lres, nAbsorbPerm_length hs])).weaken ?_
    intro r s4 hr
    rwa [if_decide_eq] at hr
  · simp only [if_neg hm]
    exact Cmp.pure hres

theorem Hasher.hashVarLen_cmp {sp : PSpec p} {h : Hasher p} {R : ℕ} (hs : WFSpec sp (R + 1)) (hR : 1 ≤ R)
    (hRp : R < p) (hL : RangeOk p L) (hc : HasherCon sp R ext s h) {is : List (AV p)} {us : List (ZMod p)}
    (hu : AvsCon ext s is us) {len : AV p} {l : ℕ} (hlen : Con ext s len ((l : ℕ) : ZMod p)) (hl : l ≤ us.length)
    (hd : safeBits L (2 ^ Nat.size us.length / R + 1) ≤ capacity p) (hr : safeBits L R ≤ capacity p)
    (hn : us.length + 1 < p) :
    Cmp (RangeTable p L) ext s (h.hashVarLen L R is len) (fun r s' =>
      Con ext s' r (spongeHash (nPerm sp) R (us.take l))) := by
  obtain ⟨h1, h2, h3⟩ := hc
  have hlu := List.Forall₂.length_eq hu
  unfold Hasher.hashVarLen
  rw [h3]
  by_cases h0 : is.length = 0
  · simp only [if_pos h0]
    have : us = [] := by rw [hlu] at h0; simpa using h0
    subst this
    exact Cmp.pure (by simpa using h2)
  · simp only [if_neg h0]
    rw [hlu] at h0 ⊢
    have hlp : l < p := by omega
    have hval : (((l : ℕ) : ZMod p)).val = l := ZMod.val_natCast_of_lt hlp
    refine Cmp.bind (divMod_cmp (a := .existing len) (n := Nat.size us.length) hL hlen (by omega) hd hr ?_) fun dm s1 e1 hdm => ?_
    · rw [hval]; exact Nat.div_le_div_right (le_trans hl (Nat.lt_size_self _).le)
    · rw [hval] at hdm
      refine Cmp.bind (inc_cmp (a := .existing dm.1) hdm.1) fun np s2 e2 hnp => ?_
      have hnp' : Con ext s2 np ((l / R + 1 : ℕ) : ZMod p) := by
        convert hnp using 1
        push_cast; rfl
      have hq : l / R + 1 < p := lt_of_le_of_lt (Nat.succ_le_succ (le_trans (Nat.div_le_self _ _) hl)) hn
      have hst := AvsCon.mono (AvsCon.mono h1 e1) e2
      have lst : (spongeInit R : List (ZMod p)).length = R + 1 := spongeInit_length R
      have hch := chunksOf_forall₂ R (AvsCon.mono (AvsCon.mono hu e1) e2)
      refine Cmp.bind (varLenLoop_cmp hs hR hRp (i := 0) hnp' (hdm.2.mono e2) hch hst hst lst lst
        (Nat.mod_lt _ (by omega)) ?_ hq) fun e s3 e3 he => ?_
      · rw [(chunksOf_spec hR is).2.2, hlu, Nat.zero_add]
        exact lt_of_le_of_lt (ceilDiv_le_self hR (by omega)) (by omega)
      · have ll := nVarLoop_length (R := R) (q := l / R) (r := l % R) (i := 0) hs (chunksOf R us) _ _ lst lst
        refine Cmp.bind (varLenExtra_cmp hs hR hRp (m := us.length) (hnp'.mono e3) he.1 he.2 ll.1 ll.2
          (lt_of_le_of_lt (Nat.succ_le_succ (Nat.div_le_self _ _)) hn) hq) fun res s4 e4 hres => ?_
        have key := nVarRes_eq hR hs l us (spongeInit R) lst hl
        unfold nVarRes at key
        dsimp only at key
        rw [key] at hres
        obtain ⟨r, hr1, hr2⟩ := AvsCon.getD hres (i := 1) (by rw [spongeAbsorb_length hR hs _ _ lst]; omega)
        exact (unwrap_cmp hr1).weaken fun a s5 h => by obtain ⟨rfl, rfl⟩ := h; exact hr2

end H2
