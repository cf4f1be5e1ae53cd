import Verif.Poseidon.Complete

/-!
# Completeness of `hash_compact_chunk_inputs`
-/

set_option autoImplicit false
set_option linter.unusedSectionVars false
namespace H2
variable {p : ℕ} [Fact p.Prime] {tbl : ZMod p → Prop} {ext : Cell → ZMod p} {s s' : Ctx p}

/-- A chunk input whose witnesses hold the given values. -/
def ChunkCon (ext : Cell → ZMod p) (s : Ctx p) (c : ChunkInput p) (v : List (List (ZMod p)) × Bool) : Prop :=
  List.Forall₂ (AvsCon ext s) c.inputs v.1 ∧ Con ext s c.isFinal (if v.2 then 1 else 0)

theorem ChunkCon.mono {c : ChunkInput p} {v : List (List (ZMod p)) × Bool} (h : ChunkCon ext s c v) (e : Ext s s') : ChunkCon ext s' c v :=
  ⟨h.1.imp fun _ _ h => AvsCon.mono h e, h.2.mono e⟩

theorem chunkLoop_cmp {sp : PSpec p} {h : Hasher p} {R : ℕ} (hs : WFSpec sp (R + 1)) (hR : 1 ≤ R) {zero : AV p} {cs : List (ChunkInput p)}
    {vs : List (List (List (ZMod p)) × Bool)} {st : List (AV p)} {blocks : List (List (ZMod p))} (hc : HasherCon sp R ext s h)
    (hz : Con ext s zero 0) (hv : List.Forall₂ (ChunkCon ext s) cs vs) (hl : ∀ v ∈ vs, ∀ i ∈ v.1, i.length = R)
    (hb : ∀ b ∈ blocks, b.length = R) (hst : AvsCon ext s st (blocks.foldl (nAbsorbPerm sp) (spongeInit R))) :
    Cmp tbl ext s (chunkLoop h R zero cs st) (fun rs s' => AvsCon ext s' (rs.map Prod.fst) (chunkSpec (nPerm sp) R blocks.flatten vs)) := by
  induction cs generalizing s vs st blocks with
  | nil => cases hv; exact Cmp.pure .nil
  | cons c cs ih =>
    rcases hv with _ | @⟨_, v, _, vs, h1, h2⟩
    obtain ⟨us, b⟩ := v
    have hinit : (spongeInit R : List (ZMod p)).length = R + 1 := spongeInit_length R
    have hu : ∀ u ∈ us, u.length = R := hl (us, b) (by simp)
    simp only [chunkLoop]
    rw [hc.2.2]
    refine Cmp.bind (absorbChunks_cmp hs hst h1.1 (foldl_absorb_length hs _ hinit) (fun u h => by rw [hu u h]; omega)) fun st1 s1 e1 hst1 => ?_
    rw [← List.foldl_append] at hst1
    have hnew : ∀ x ∈ blocks ++ us, x.length = R := by
      intro x hx
      rcases List.mem_append.1 hx with hx | hx
      · exact hb x hx
      · exact hu x hx
    have len1 := foldl_absorb_length (sp := sp) hs (blocks ++ us) hinit
    refine Cmp.bind (permutation_cmp_none hs hst1 .nil len1 (by simp)) fun out s2 e2 hout => ?_
    have hlo : (nAbsorbPerm sp ((blocks ++ us).foldl (nAbsorbPerm sp) (spongeInit R)) []).length = R + 1 := nAbsorbPerm_length hs _ _
    obtain ⟨o1, ho, hoc⟩ := AvsCon.getD hout (i := 1) (by rw [hlo]; omega)
    refine Cmp.unwrap ho ?_
    have hf2 := (h1.2.mono e1).mono e2
    have hz2 := (hz.mono e1).mono e2
    refine Cmp.bind (select_cmp (a := .existing o1) (b := .existing zero) (c := .existing c.isFinal) hoc hz2 hf2) fun hash s3 e3 hh => ?_
    have hc3 := ((hc.mono e1).mono e2).mono e3
    refine Cmp.bind (stateSelect_cmp (b := b) (hf2.mono e3) (AvsCon.mono (AvsCon.mono hst1 e2) e3) hc3.1 (by rw [len1, hinit]))
      fun st3 s4 e4 hst3 => ?_
    have hv4 : List.Forall₂ (ChunkCon ext s4) cs vs := h2.imp fun _ _ h => (((h.mono e1).mono e2).mono e3).mono e4
    have key : Cmp tbl ext s4 (chunkLoop h R zero cs st3) (fun rs s' => AvsCon ext s' (rs.map Prod.fst)
        (chunkSpec (nPerm sp) R (if b then [] else blocks ++ us).flatten vs)) := by
      refine ih (s := s4) (blocks := if b then [] else blocks ++ us) (hc3.mono e4) ((hz2.mono e3).mono e4) hv4 (fun v h => hl v (by simp [h])) ?_ ?_
      · cases b
        · exact hnew
        · simp
      · cases b
        · exact hst3
        · exact hst3
    refine Cmp.bind key fun rs s5 e5 hrs => Cmp.pure ?_
    rw [List.map_cons, chunkSpec]
    refine .cons ?_ ?_
    · have hh' := (hh.mono e4).mono e5
      cases b
      · simpa using hh'
      · simp only [if_true, mul_one, sub_add_cancel] at hh' ⊢
        have := spongeHash_blocks hR hs _ hnew [] _ hinit
        rw [List.append_nil] at this
        rw [spongeHash, ← List.flatten_append, this, spongeAbsorb_last hR hs _ _ (foldl_absorb_length hs _ hinit) (by simp; omega)]
        exact hh'
    · show AvsCon ext s5 (rs.map Prod.fst) _
      cases b
      · rw [if_neg (by simp), List.flatten_append] at hrs
        exact hrs
      · exact hrs

theorem Hasher.hashChunks_cmp {sp : PSpec p} {h : Hasher p} {R : ℕ} (hs : WFSpec sp (R + 1)) (hR : 1 ≤ R) {cs : List (ChunkInput p)}
    {vs : List (List (List (ZMod p)) × Bool)} (hc : HasherCon sp R ext s h) (hv : List.Forall₂ (ChunkCon ext s) cs vs)
    (hl : ∀ v ∈ vs, ∀ i ∈ v.1, i.length = R) :
    Cmp tbl ext s (h.hashChunks R cs) (fun rs s' => AvsCon ext s' (rs.map Prod.fst) (chunkSpec (nPerm sp) R [] vs)) := by
  refine Cmp.bind loadZero_cmp fun z s1 e1 hz => ?_
  have hc1 := hc.mono e1
  exact chunkLoop_cmp (blocks := []) hs hR hc1 hz (hv.imp fun _ _ h => h.mono e1) hl (by simp) hc1.1

end H2
