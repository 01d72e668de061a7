import Verif.Model.Block
import Verif.Props.Stack
/-!
# C99: assembling an array from nested lists of blocks

`np.block`.
-/

namespace Props
open Spec Rumpy

theorem concatenate_toNd {zero : α} {arrs : List (Nd α)} {axis : Nat} {r : Arr α} (hr : concatenate zero arrs axis = some r) :
    IsJoin axis arrs (r.toNd zero) := by
  obtain ⟨h1, h2, h3, -⟩ := C11_concatenate zero arrs axis r hr
  obtain ⟨nd, hnd, hj⟩ := concatenate_join.2 r hr
  obtain ⟨hn1, hn2⟩ := hj
  have hsh : nd.shape = (r.toNd zero).shape := hnd.1.symm
  refine ⟨by rw [← hsh]; exact hn1, fun k a hk => ?_⟩
  obtain ⟨h4, h5⟩ := hn2 k a hk
  refine ⟨by rw [← hsh]; exact h4, fun idx hi => ?_⟩
  have := (h3 k a hk idx hi).2
  show (r.at? _).getD zero = _
  simp only [joinOffset] at this
  rw [this]
  rfl

theorem max_const {l : List Nat} {n : Nat} (hne : l ≠ []) (h : ∀ x ∈ l, x = n) : l.max?.getD 1 = n := by
  have : l.max? = some n := by
    rw [List.max?_eq_some_iff]
    refine ⟨?_, fun b hb => le_of_eq (h b hb)⟩
    rcases l with _ | ⟨x, l⟩
    · exact absurd rfl hne
    · rw [← h x List.mem_cons_self]
      exact List.mem_cons_self
  rw [this]
  rfl

/-- One array alone is what it is joined to. -/
theorem join_single {axis : Nat} {b : Nd α} (hax : axis < b.shape.length) : CanJoin axis [b] ∧ IsJoin axis [b] b := by
  refine ⟨⟨by simp, ?_⟩, by simp, ?_⟩
  · intro a ha
    rw [List.mem_singleton] at ha
    subst ha
    refine ⟨hax, fun c hc => ?_⟩
    rw [List.mem_singleton] at hc
    subst hc
    exact ⟨rfl, fun _ _ => rfl⟩
  · intro k a hk
    obtain ⟨rfl, rfl⟩ : k = 0 ∧ a = b := by
      rcases k with _ | k
      · exact ⟨rfl, by simpa [eq_comm] using hk⟩
      · simp at hk
    refine ⟨⟨rfl, fun _ _ => rfl⟩, fun idx _ => ?_⟩
    show a.get (idx.modify axis (· + 0)) = _
    have : idx.modify axis (· + 0) = idx := by
      apply List.ext_getElem (by simp)
      intro i _ _
      simp [List.getElem_modify]
    rw [this]

theorem joinBlocks_join {zero : α} {depth n : Nat} {blocks : List (Nd α)} (hne : blocks ≠ [])
    (hrank : ∀ b ∈ blocks, b.shape.length = n) (hd : depth < n) :
    ((∃ r, joinBlocks zero depth blocks = some r) ↔ CanJoin depth blocks) ∧
    ∀ r, joinBlocks zero depth blocks = some r → CanJoin depth blocks ∧ IsJoin depth blocks r ∧ r.shape.length = n := by
  have hax : (if depth < (blocks.map fun b => b.shape.length).max?.getD 1 then depth
      else (blocks.map fun b => b.shape.length).max?.getD 1 - 1) = depth := by
    rw [max_const (n := n) (by simpa using hne) (by
      intro x hx
      obtain ⟨b, hb, rfl⟩ := List.mem_map.1 hx
      exact hrank b hb), if_pos hd]
  have hlen : ∀ {r : Nd α}, IsJoin depth blocks r → r.shape.length = n := by
    intro r hj
    rcases blocks with _ | ⟨b, l⟩
    · exact absurd rfl hne
    · rw [← ((hj.2 0 b rfl).1).1]
      exact hrank b List.mem_cons_self
  have main : ∀ o, o = (concatenate zero blocks depth).map (Arr.toNd zero) →
      ((∃ r, o = some r) ↔ CanJoin depth blocks) ∧
      ∀ r, o = some r → CanJoin depth blocks ∧ IsJoin depth blocks r ∧ r.shape.length = n := by
    rintro o rfl
    have hiff := (concatenate_join (zero := zero) (arrs := blocks) (axis := depth)).1
    refine ⟨⟨?_, fun h => ?_⟩, ?_⟩
    · rintro ⟨r, h⟩
      obtain ⟨q, hq, _⟩ := Option.map_eq_some_iff.1 h
      exact hiff.1 (by rw [hq]; rfl)
    · obtain ⟨q, hq⟩ := Option.isSome_iff_exists.1 (hiff.2 h)
      exact ⟨_, by rw [hq]; rfl⟩
    · intro r h
      obtain ⟨q, hq, rfl⟩ := Option.map_eq_some_iff.1 h
      have hj := concatenate_toNd hq
      exact ⟨hiff.1 (by rw [hq]; rfl), hj, hlen hj⟩
  rcases blocks with _ | ⟨b, _ | ⟨c, l⟩⟩
  · exact absurd rfl hne
  · have hb := join_single (axis := depth) (b := b) (by rw [hrank b List.mem_cons_self]; exact hd)
    refine ⟨⟨fun _ => hb.1, fun _ => ⟨b, rfl⟩⟩, fun r h => ?_⟩
    obtain rfl := Option.some.inj h
    exact ⟨hb.1, hb.2, hrank _ List.mem_cons_self⟩
  · refine main _ ?_
    show (concatenate zero (b :: c :: l) _).map (Arr.toNd zero) = _
    rw [hax]

theorem toRank_self {n : Nat} {a : Nd α} (h : a.shape.length = n) : a.Same (a.toRank n) := by
  subst h
  refine ⟨by simp [Nd.toRank], fun idx _ => ?_⟩
  simp [Nd.toRank]

/-- Joining depends on the shapes only. -/
theorem canJoin_shapes {axis : Nat} {as bs : List (Nd α)} (h : List.Forall₂ (fun a b => a.shape = b.shape) as bs) :
    CanJoin axis as → CanJoin axis bs := by
  rintro ⟨hne, hj⟩
  have hmem : ∀ b ∈ bs, ∃ a ∈ as, a.shape = b.shape := by
    clear hj hne
    induction h with
    | nil => simp
    | cons hab _ ih =>
      intro c hc
      rcases List.mem_cons.1 hc with rfl | hc
      · exact ⟨_, List.mem_cons_self, hab⟩
      · obtain ⟨a, ha, he⟩ := ih c hc
        exact ⟨a, List.mem_cons_of_mem _ ha, he⟩
  refine ⟨?_, fun b hb => ?_⟩
  · rintro rfl
    cases h
    exact hne rfl
  · obtain ⟨a, ha, he⟩ := hmem b hb
    rw [← he]
    refine ⟨(hj a ha).1, fun c hc => ?_⟩
    obtain ⟨d, hd, he'⟩ := hmem c hc
    rw [← he']
    exact (hj a ha).2 d hd

theorem join_shape {axis : Nat} {as bs : List (Nd α)} {r q : Nd α} (h : List.Forall₂ (fun a b => a.shape = b.shape) as bs)
    (hc : CanJoin axis as) (hr : IsJoin axis as r) (hq : IsJoin axis bs q) : r.shape = q.shape := by
  have hsum : (as.map fun a => a.shape.getD axis 0).sum = (bs.map fun a => a.shape.getD axis 0).sum := by
    congr 1
    clear hc hr hq
    induction h with
    | nil => rfl
    | cons hab _ ih => rw [List.map_cons, List.map_cons, ih, hab]
  cases h with
  | nil => exact absurd rfl hc.1
  | @cons a b as bs hab h =>
    obtain ⟨⟨h1, h2⟩, _⟩ := hr.2 0 a rfl
    obtain ⟨⟨h3, h4⟩, _⟩ := hq.2 0 b rfl
    have hlen : r.shape.length = q.shape.length := by rw [← h1, ← h3, hab]
    apply List.ext_getElem hlen
    intro i hi hi'
    have e1 : r.shape.getD i 0 = r.shape[i] := List.getD_eq_getElem _ _ hi
    have e2 : q.shape.getD i 0 = q.shape[i] := List.getD_eq_getElem _ _ hi'
    rw [← e1, ← e2]
    by_cases ha : i = axis
    · subst ha
      rw [hr.1, hq.1, hsum]
    · rw [← h2 i ha, ← h4 i ha, hab]

theorem process_uniform (zero : α) (n : Nat) : ∀ (depth : Nat) (t : Nested (Nd α)), depth ≤ n → t.Uniform n depth →
    (∀ r, processBlock zero (n - depth) t = some r → IsBlock n depth t r ∧ r.shape.length = n) ∧
    (∀ q, IsBlock n depth t q → ∃ r, processBlock zero (n - depth) t = some r ∧ r.shape = q.shape) := by
  intro depth
  induction depth with
  | zero =>
    intro t _ ht
    cases t with
    | list l => exact ht.elim
    | leaf a =>
      have ht : a.shape.length = n := ht
      refine ⟨fun r hr => ?_, fun q hq => ⟨a, by rw [processBlock], ?_⟩⟩
      · rw [processBlock] at hr
        obtain rfl := Option.some.inj hr
        exact ⟨toRank_self ht, ht⟩
      · exact (toRank_self ht).1.trans (show q.Same (a.toRank n) from hq).1.symm
  | succ depth ih =>
    intro t hdn ht
    cases t with
    | leaf a => exact ht.elim
    | list l =>
      obtain ⟨hne, hl⟩ : l ≠ [] ∧ ∀ t ∈ l, t.Uniform n depth := ht
      have hstep : n - (depth + 1) + 1 = n - depth := by omega
      -- the blocks of the list
      have hblocks : ∀ m : List (Nested (Nd α)), (∀ t ∈ m, t.Uniform n depth) →
          (∀ bs, processBlocks zero (n - depth) m = some bs → List.Forall₂ (IsBlock n depth) m bs ∧ ∀ b ∈ bs, b.shape.length = n) ∧
          (∀ qs, List.Forall₂ (IsBlock n depth) m qs →
            ∃ bs, processBlocks zero (n - depth) m = some bs ∧ List.Forall₂ (fun a b => a.shape = b.shape) qs bs) := by
        intro m
        induction m with
        | nil =>
          intro _
          refine ⟨fun bs h => ?_, fun qs h => ?_⟩
          · rw [processBlocks] at h
            obtain rfl := Option.some.inj h
            exact ⟨List.Forall₂.nil, by simp⟩
          · cases h
            exact ⟨[], by rw [processBlocks], List.Forall₂.nil⟩
        | cons t m ihm =>
          intro hm
          obtain ⟨i1, i2⟩ := ihm fun x hx => hm x (List.mem_cons_of_mem _ hx)
          obtain ⟨j1, j2⟩ := ih t (by omega) (hm t List.mem_cons_self)
          refine ⟨fun bs h => ?_, fun qs h => ?_⟩
          · rw [processBlocks] at h
            obtain ⟨b, hb, h⟩ := Option.bind_eq_some_iff.1 h
            obtain ⟨bs', hbs, rfl⟩ := Option.map_eq_some_iff.1 h
            obtain ⟨k1, k2⟩ := i1 bs' hbs
            refine ⟨List.Forall₂.cons (j1 b hb).1 k1, ?_⟩
            rw [List.forall_mem_cons]
            exact ⟨(j1 b hb).2, k2⟩
          · cases h with
            | @cons _ q _ qs hq hqs =>
              obtain ⟨b, hb, he⟩ := j2 q hq
              obtain ⟨bs, hbs, hf⟩ := i2 qs hqs
              refine ⟨b :: bs, ?_, List.Forall₂.cons he.symm hf⟩
              rw [processBlocks, hb, hbs]
              rfl
      obtain ⟨b1, b2⟩ := hblocks l hl
      have hemp : ¬ l.isEmpty = true := by simpa using hne
      have hpos : n - (depth + 1) < n := by omega
      refine ⟨fun r hr => ?_, fun q hq => ?_⟩
      · rw [processBlock, if_neg hemp, hstep] at hr
        obtain ⟨bs, hbs, hr⟩ := Option.bind_eq_some_iff.1 hr
        obtain ⟨k1, k2⟩ := b1 bs hbs
        have hbne : bs ≠ [] := by
          rintro rfl
          cases k1
          exact hne rfl
        obtain ⟨c1, c2, c3⟩ := (joinBlocks_join hbne k2 hpos).2 r hr
        exact ⟨⟨bs, k1, c1, c2⟩, c3⟩
      · obtain ⟨qs, hqs, hc, hj⟩ : ∃ parts, List.Forall₂ (IsBlock n depth) l parts ∧ CanJoin (n - (depth + 1)) parts ∧
            IsJoin (n - (depth + 1)) parts q := hq
        obtain ⟨bs, hbs, hf⟩ := b2 qs hqs
        obtain ⟨k1, k2⟩ := b1 bs hbs
        have hbne : bs ≠ [] := by
          rintro rfl
          cases k1
          exact hne rfl
        have hc' := canJoin_shapes hf hc
        obtain ⟨r, hr⟩ := (joinBlocks_join (zero := zero) hbne k2 hpos).1.2 hc'
        obtain ⟨_, c2, _⟩ := (joinBlocks_join hbne k2 hpos).2 r hr
        refine ⟨r, ?_, (join_shape hf hc hj c2).symm⟩
        rw [processBlock, if_neg hemp, hstep, hbs]
        exact hr

/-- C99 (partial): for arrays with as many axes as there are lists around each of them, `block` succeeds exactly when the
blocks fit together, and gives what `np.block` assembles.  Missing: any other number of axes; see the counterexamples. -/
theorem C99_block_partial (zero : α) (n : Nat) (t : Nested (Nd α)) (ht : t.Uniform n n) :
    ((block zero t).isSome ↔ ∃ q, IsBlock n n t q) ∧ ∀ r, block zero t = some r → IsBlock n n t r := by
  obtain ⟨h1, h2⟩ := process_uniform zero n n t le_rfl ht
  rw [Nat.sub_self] at h1 h2
  refine ⟨⟨fun h => ?_, fun ⟨q, hq⟩ => ?_⟩, fun r hr => (h1 r hr).1⟩
  · obtain ⟨r, hr⟩ := Option.isSome_iff_exists.1 h
    exact ⟨r, (h1 r hr).1⟩
  · obtain ⟨r, hr, _⟩ := h2 q hq
    show (processBlock zero 0 t).isSome
    rw [hr]
    rfl

/-- An array of this shape filled with one number. -/
def blockOf (s : List Nat) (x : Nat) : Nd Nat := ⟨s, fun _ => x⟩

/-- A 2 by 2 arrangement of matrices. -/
def fourBlocks : Nested (Nd Nat) :=
  .list [.list [.leaf (blockOf [1, 2] 1), .leaf (blockOf [1, 1] 2)], .list [.leaf (blockOf [2, 2] 3), .leaf (blockOf [2, 1] 4)]]

theorem fourBlocks_uniform : fourBlocks.Uniform 2 2 := by
  simp [fourBlocks, Nested.Uniform, blockOf]

example : (block 0 fourBlocks).map Nd.toList = some [1, 1, 2, 3, 3, 4, 3, 3, 4] ∧ ∃ q, IsBlock 2 2 fourBlocks q :=
  ⟨by decide +kernel, (C99_block_partial 0 2 _ fourBlocks_uniform).1.1 (by decide +kernel)⟩

/-- C99: a list of arrays is laid along the first axis, however many axes the arrays have; `np.block` lays it along the
last. -/
theorem C99_flat (zero : α) (n : Nat) (hn : 0 < n) (arrs : List (Nd α)) (hne : arrs ≠ []) (hrank : ∀ a ∈ arrs, a.shape.length = n) :
    ((block zero (.list (arrs.map .leaf))).isSome ↔ CanJoin 0 arrs) ∧
    ∀ r, block zero (.list (arrs.map .leaf)) = some r → IsJoin 0 arrs r := by
  have hp : ∀ l : List (Nd α), processBlocks zero 1 (l.map .leaf) = some l := by
    intro l
    induction l with
    | nil => rw [List.map_nil, processBlocks]
    | cons a l ih =>
      rw [List.map_cons, processBlocks, processBlock, Option.bind_some, ih]
      rfl
  have hb : block zero (.list (arrs.map .leaf)) = joinBlocks zero 0 arrs := by
    unfold block
    rw [processBlock, if_neg (by simpa using hne), hp, Option.bind_some]
  obtain ⟨h1, h2⟩ := joinBlocks_join (zero := zero) hne hrank hn
  rw [hb, Option.isSome_iff_exists]
  exact ⟨h1, fun r hr => (h2 r hr).2.1⟩

example : (block 0 (.list ([blockOf [2] 1, blockOf [1] 2].map .leaf))).isSome = true :=
  (C99_flat 0 1 Nat.one_pos [blockOf [2] 1, blockOf [1] 2] (by simp) (by simp [blockOf])).1.2 (by
    refine ⟨by simp, ?_⟩
    simp only [List.mem_cons, List.not_mem_nil, or_false, forall_eq_or_imp, forall_eq, blockOf]
    refine ⟨⟨by simp, by simp, by simp, ?_⟩, by simp, ⟨by simp, ?_⟩, by simp⟩
    · rintro (_ | i) h
      · exact absurd rfl h
      · simp
    · rintro (_ | i) h
      · exact absurd rfl h
      · simp)

/-- C99: two matrices in one list end up below each other; `np.block` puts them side by side. -/
theorem C99_row_counterexample :
    (block 0 (.list [.leaf (blockOf [2, 2] 1), .leaf (blockOf [2, 2] 2)])).map (fun r => (r.shape, r.toList)) =
      some ([4, 2], [1, 1, 1, 1, 2, 2, 2, 2]) ∧
    (∀ q, IsBlock 2 1 (.list [.leaf (blockOf [2, 2] 1), .leaf (blockOf [2, 2] 2)]) q → q.shape = [2, 4]) := by
  refine ⟨by decide +kernel, ?_⟩
  rintro q ⟨parts, hp, _, hj⟩
  cases hp with
  | @cons _ a _ l ha hp =>
  cases hp with
  | @cons _ b _ l hb hp =>
  cases hp
  have hash : a.shape = [2, 2] := (show a.Same ((blockOf [2, 2] 1).toRank 2) from ha).1
  have hbsh : b.shape = [2, 2] := (show b.Same ((blockOf [2, 2] 2).toRank 2) from hb).1
  obtain ⟨⟨h1, h2⟩, _⟩ := hj.2 0 a rfl
  have h3 := hj.1
  have h4 := h2 0 (by decide)
  rw [hash] at h1 h4
  simp only [List.map_cons, List.map_nil, hash, hbsh] at h3
  rcases hq : q.shape with _ | ⟨x, _ | ⟨y, _ | ⟨z, l⟩⟩⟩ <;> rw [hq] at h1 h3 h4
  · simp at h1
  · simp at h1
  · simp only [List.getD_cons_zero, List.getD_cons_succ, List.sum_cons, List.sum_nil, Nat.reduceSub, Nat.reduceAdd] at h3 h4
    rw [← h4, h3]
  · simp at h1

/-- C99: vectors in lists of lists are strung together into one vector; `np.block` makes each inner list a row. -/
theorem C99_vectors_counterexample :
    (block 0 (.list [.list [.leaf (blockOf [2] 1), .leaf (blockOf [1] 2)], .list [.leaf (blockOf [2] 3), .leaf (blockOf [1] 4)]])).map
      (fun r => (r.shape, r.toList)) = some ([6], [1, 1, 2, 3, 3, 4]) ∧
    ¬ ∃ q : Nd Nat, q.shape = [6] ∧
      IsBlock 2 2 (.list [.list [.leaf (blockOf [2] 1), .leaf (blockOf [1] 2)], .list [.leaf (blockOf [2] 3), .leaf (blockOf [1] 4)]]) q := by
  refine ⟨by decide +kernel, ?_⟩
  rintro ⟨q, hq, parts, hp, hc, hj⟩
  cases hp with
  | @cons _ a _ l ha hp =>
  obtain ⟨⟨h1, _⟩, _⟩ := hj.2 0 a rfl
  obtain ⟨ps, hps, _, hk⟩ := ha
  cases hps with
  | @cons _ b _ l hb hps =>
  obtain ⟨⟨h2, _⟩, _⟩ := hk.2 0 b rfl
  have hbsh : b.shape = [1, 2] := (show b.Same ((blockOf [2] 1).toRank 2) from hb).1
  rw [← h2, hbsh, hq] at h1
  simp at h1

/-- C99: arrays at different depths are accepted; `np.block` refuses them. -/
theorem C99_depth_counterexample :
    (block 0 (.list [.leaf (blockOf [2] 1), .list [.leaf (blockOf [1] 2)]])).isSome = true ∧
    ∀ n d q, ¬ IsBlock n d (.list [.leaf (blockOf [2] 1), .list [.leaf (blockOf [1] 2)]]) q := by
  refine ⟨by decide +kernel, ?_⟩
  intro n d q h
  rcases d with _ | d
  · exact h
  · obtain ⟨parts, hp, _, _⟩ := h
    cases hp with
    | cons ha hp =>
    cases hp with
    | cons hb hp =>
    rcases d with _ | d
    · exact hb
    · exact ha

end Props
