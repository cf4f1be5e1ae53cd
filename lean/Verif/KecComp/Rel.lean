import Verif.KecComp.Model
import Verif.Poseidon.Rel
import Verif.SafeTypes.Rel

/-!
# Relational lemmas for the Keccak component

Keygen against prover runs, and the independence of the circuit from the values; see `Core/Rel.lean`.
-/

set_option autoImplicit false
set_option linter.unusedSectionVars false
namespace H2.KC
open H2 Kec
variable {p : ℕ} [Fact p.Prime] {k : Bool}

/-- Related loaded keccak_f's. -/
structure RF (k : Bool) (a b : LoadedF (AV p)) : Prop where
  bytesLeft : RA k a.bytesLeft b.bytesLeft
  words : RAs k a.words b.words
  isFinal : RA k a.isFinal b.isFinal
  hashLo : RA k a.hashLo b.hashLo
  hashHi : RA k a.hashHi b.hashHi

/-- Related rows. -/
structure RRow (k : Bool) (a b : Row (AV p)) : Prop where
  key : RA k a.key b.key
  lo : RA k a.lo b.lo
  hi : RA k a.hi b.hi

theorem padTo_rel {α β : Type} {R : α → β → Prop} (n : ℕ) {z : α} {z' : β} (hz : R z z') {l : List α} {l' : List β} (h : List.Forall₂ R l l') :
    List.Forall₂ R (padTo n z l) (padTo n z' l') := by
  unfold padTo
  rw [h.length_eq]
  refine List.rel_append h ?_
  generalize n - l'.length = m
  induction m with
  | zero => exact .nil
  | succ m ih => exact .cons hz ih

theorem take_rel {α β : Type} {R : α → β → Prop} (n : ℕ) {l : List α} {l' : List β} (h : List.Forall₂ R l l') :
    List.Forall₂ R (l.take n) (l'.take n) := List.forall₂_take n h

theorem chunksOf_rel {α β : Type} {R : α → β → Prop} (n : ℕ) {l : List α} {l' : List β} (h : List.Forall₂ R l l') :
    List.Forall₂ (List.Forall₂ R) (chunksOf n l) (chunksOf n l') := by
  unfold chunksOf
  rw [h.length_eq]
  exact chunksAux_rel _ _ h

theorem ipResized_rel (ms : List (ZMod p)) (W : ℕ) {z z' : AV p} (hz : RA k z z') {cs cs' : List (List (AV p))} (h : List.Forall₂ (RAs k) cs cs') :
    Rel k (ipResized ms W z cs) (ipResized ms W z' cs') (RAs k) := by
  induction h with
  | nil => exact Rel.pure .nil
  | cons hc _ ih =>
    exact (innerProduct_rel (exist_rel (padTo_rel W hz hc)) (consts_rel ms)).bind fun _ _ hr => ih.bind fun _ _ hrs => Rel.pure (.cons hr hrs)

theorem packLoop_rel {one one' zero zero' : AV p} (hz : RA k zero zero') {fs fs' : List (LoadedF (AV p))}
    (h : List.Forall₂ (RF k) fs fs') {last last' : AV p} (hl : RA k last last') :
    Rel k (packLoop one zero last fs) (packLoop one' zero' last' fs') (List.Forall₂ (RChunk k)) := by
  induction h generalizing last last' with
  | nil => exact Rel.pure .nil
  | @cons f f' _ _ hf _ ih =>
    simp only [packLoop]
    exact (mul_rel hf.bytesLeft.q hl.q).bind fun _ _ hlen =>
      (ipResized_rel _ _ hz (chunksOf_rel _ (.cons hlen hf.words))).bind fun _ _ hd =>
      (ih hf.isFinal).bind fun _ _ hrs => Rel.pure (.cons ⟨chunksOf_rel 2 (take_rel _ (padTo_rel _ hz hd)), hf.isFinal⟩ hrs)

theorem packInputs_rel {fs fs' : List (LoadedF (AV p))} (h : List.Forall₂ (RF k) fs fs') :
    Rel k (packInputs fs) (packInputs fs') (List.Forall₂ (RChunk k)) :=
  (loadConstant_rel 1).bind fun _ _ h1 => loadZero_rel.bind fun _ _ hz => (assertM_rel fun _ => rfl).bind fun _ _ _ => packLoop_rel hz h h1

theorem encodeInputs_rel {hs hs' : Hasher p} (hh : RHasher k hs hs') {fs fs' : List (LoadedF (AV p))} (h : List.Forall₂ (RF k) fs fs') :
    Rel k (encodeInputs hs fs) (encodeInputs hs' fs') (List.Forall₂ fun a b => RA k a.1 b.1 ∧ RA k a.2 b.2) :=
  (packInputs_rel h).bind fun _ _ hc => Hasher.hashChunks_rel hh 2 hc

theorem outputLoop_rel {dk dk' dlo dlo' dhi dhi' : AV p} (h1 : RA k dk dk') (h2 : RA k dlo dlo') (h3 : RA k dhi dhi')
    {es es' : List ((AV p × AV p) × LoadedF (AV p))} (h : List.Forall₂ (fun a b => (RA k a.1.1 b.1.1 ∧ RA k a.1.2 b.1.2) ∧ RF k a.2 b.2) es es') :
    Rel k (outputLoop dk dlo dhi es) (outputLoop dk' dlo' dhi' es') (List.Forall₂ (RRow k)) := by
  induction h with
  | nil => exact Rel.pure .nil
  | cons he _ ih =>
    exact (select_rel he.1.1.q h1.q he.2.isFinal.q).bind fun _ _ a1 => (select_rel he.2.hashLo.q h2.q he.2.isFinal.q).bind fun _ _ a2 =>
      (select_rel he.2.hashHi.q h3.q he.2.isFinal.q).bind fun _ _ a3 => ih.bind fun _ _ hrs => Rel.pure (.cons ⟨a1, a2, a3⟩ hrs)

theorem zip_rel {α β γ δ : Type} {R : α → β → Prop} {S : γ → δ → Prop} {a : List α} {b : List β} {c : List γ} {d : List δ}
    (h : List.Forall₂ R a b) (h' : List.Forall₂ S c d) : List.Forall₂ (fun x y => R x.1 y.1 ∧ S x.2 y.2) (a.zip c) (b.zip d) := by
  induction h generalizing c d with
  | nil => exact .nil
  | cons h _ ih =>
    cases h' with
    | nil => exact .nil
    | cons h1 h2 => exact .cons ⟨h, h1⟩ (ih h2)

theorem finalOutputs_rel (d : Row (ZMod p)) {keys keys' : List (AV p × AV p)} (hk : List.Forall₂ (fun a b => RA k a.1 b.1 ∧ RA k a.2 b.2) keys keys')
    {fs fs' : List (LoadedF (AV p))} (h : List.Forall₂ (RF k) fs fs') :
    Rel k (finalOutputs d keys fs) (finalOutputs d keys' fs') (List.Forall₂ (RRow k)) := by
  unfold finalOutputs
  rw [hk.length_eq, h.length_eq]
  exact (loadConstant_rel _).bind fun _ _ h1 => (loadConstant_rel _).bind fun _ _ h2 => (loadConstant_rel _).bind fun _ _ h3 =>
    (assertM_rel fun _ => rfl).bind fun _ _ _ => outputLoop_rel h1 h2 h3 (zip_rel hk h)

theorem baseOutputs_rel (d : Row (ZMod p)) {hs hs' : Hasher p} (hh : RHasher k hs hs') {fs fs' : List (LoadedF (AV p))} (h : List.Forall₂ (RF k) fs fs') :
    Rel k (baseOutputs d hs fs) (baseOutputs d hs' fs') (List.Forall₂ (RRow k)) :=
  (encodeInputs_rel hh h).bind fun _ _ hk => finalOutputs_rel d hk h

theorem flatRows_rel {rs rs' : List (Row (AV p))} (h : List.Forall₂ (RRow k) rs rs') : RAs k (flatRows rs) (flatRows rs') := by
  induction h with
  | nil => exact .nil
  | cons h _ ih => exact .cons h.key (.cons h.lo (.cons h.hi ih))

theorem publishOutputs_rel {hs hs' : Hasher p} (hh : RHasher k hs hs') (cap : ℕ) (raw : Bool) {rs rs' : List (Row (AV p))}
    (h : List.Forall₂ (RRow k) rs rs') : Rel k (publishOutputs hs cap raw rs) (publishOutputs hs' cap raw rs') (List.Forall₂ (RAs k)) := by
  unfold publishOutputs
  rw [h.length_eq]
  refine (assertM_rel fun _ => rfl).bind fun _ _ _ => ?_
  cases raw with
  | true =>
    refine Rel.pure (.cons ?_ (.cons ?_ (.cons ?_ .nil)))
    · show List.Forall₂ (RA k) _ _; rw [List.forall₂_map_left_iff, List.forall₂_map_right_iff]; exact h.imp fun _ _ h => h.key
    · show List.Forall₂ (RA k) _ _; rw [List.forall₂_map_left_iff, List.forall₂_map_right_iff]; exact h.imp fun _ _ h => h.lo
    · show List.Forall₂ (RA k) _ _; rw [List.forall₂_map_left_iff, List.forall₂_map_right_iff]; exact h.imp fun _ _ h => h.hi
  | false => exact (Hasher.hashFixLen_rel hh 2 (flatRows_rel h)).bind fun _ _ h => Rel.pure (.cons (.cons h .nil) .nil)

end H2.KC
