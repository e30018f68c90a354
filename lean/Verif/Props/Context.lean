import Verif.Model.Context
import Mathlib.Data.List.Perm.Lattice
import Mathlib.Data.List.Basic

/-!
# Handing locks from one context to another: C47
-/

set_option linter.unusedSectionVars false
set_option linter.unusedVariables false

namespace V11

/-- No two of these locks exclude each other. -/
def Compatible (gs : List Guard) : Prop := gs.Pairwise (fun a b => conflicts a.ty b.ty = false)

/-- A `TypeId` belongs to one type (Rust guarantees it). -/
def TypeIds (tys : List LockTy) : Prop := ∀ a ∈ tys, ∀ b ∈ tys, a.tid = b.tid → a = b

namespace Context

theorem okB {α β : Type} (a : α) (f : α → R β) : ((Except.ok a : R α) >>= f) = f a := rfl
theorem errB {α β : Type} (e : Panic) (f : α → R β) : ((Except.error e : R α) >>= f) = .error e := rfl

theorem conflicts_comm (a b : LockTy) : conflicts a b = conflicts b a := by
  unfold conflicts
  rw [Bool.or_comm]
  congr 1
  exact decide_eq_decide.2 eq_comm

theorem releaseList_append (slots : List Slot) (l : Locks) (a b : List Guard) :
    releaseList slots l (a ++ b) = (do let (s, l) ← releaseList slots l a; releaseList s l b) := by
  induction a generalizing slots l with
  | nil => rfl
  | cons g a ih =>
    simp only [List.cons_append, releaseList]
    cases releaseField slots l g with
    | error e => rfl
    | ok x =>
      obtain ⟨s, l1⟩ := x
      simp only [okB]
      exact ih s l1

theorem release_guards (old : Old) (slots : List Slot) (l : Locks) : old.release slots l = releaseList slots l old.guards := by
  induction old generalizing slots l with
  | unit => rfl
  | ctx f => rfl
  | one a ih => exact ih slots l
  | two a b iha ihb =>
    simp only [Old.release, Old.guards, releaseList_append, iha]
    cases releaseList slots l a.guards with
    | error e => rfl
    | ok x => simp only [okB]; exact ihb _ _
  | three a b c iha ihb ihc =>
    simp only [Old.release, Old.guards, releaseList_append, iha]
    cases releaseList slots l a.guards with
    | error e => rfl
    | ok x =>
      simp only [okB]
      rw [ihb]
      cases releaseList x.1 x.2 b.guards with
      | error e => rfl
      | ok y => simp only [okB]; exact ihc _ _

theorem slotFor_some {slots : List Slot} {n : String} {i : Nat} (h : slotFor slots n = some i) :
    ∃ s, slots[i]? = some s ∧ s.1.name = n := by
  unfold slotFor at h
  rw [List.findIdx?_eq_some_iff_getElem] at h
  obtain ⟨hi, h1, -⟩ := h
  exact ⟨slots[i], List.getElem?_eq_getElem hi, by simpa using h1⟩

theorem slotFor_map (slots : List Slot) (n : String) : slotFor slots n = (slots.map (·.1.name)).findIdx? (fun x => x = n) := by
  unfold slotFor
  rw [List.findIdx?_map]
  rfl

theorem slotFor_names {a b : List Slot} (h : a.map (·.1) = b.map (·.1)) (n : String) : slotFor a n = slotFor b n := by
  rw [slotFor_map, slotFor_map]
  have : a.map (·.1.name) = b.map (·.1.name) := by
    have := congrArg (List.map LockTy.name) h
    simpa [List.map_map, Function.comp_def] using this
  rw [this]

theorem map_set_fst (slots : List Slot) (i : Nat) (ty : LockTy) (o : Option Guard) (h : ∃ o', slots[i]? = some (ty, o')) :
    (slots.set i (ty, o)).map (·.1) = slots.map (·.1) := by
  obtain ⟨o', h⟩ := h
  rw [List.map_set]
  refine List.ext_getElem? ?_
  intro j
  rw [List.getElem?_set]
  split
  · rename_i e; subst e
    split
    · simp [h]
    · rename_i hl; simp at hl; simp [hl]
  · rfl

/-- What one field of the old context goes through. -/
theorem releaseField_ok {slots slots' : List Slot} {l l' : Locks} {g : Guard} (h : releaseField slots l g = .ok (slots', l')) :
    (slots' = slots ∧ g.dirty = false ∧ l' = { l with held := l.held.erase g, log := l.log ++ [.released g] } ∧
      ∀ i ty, slotFor slots g.ty.name = some i → slots[i]? ≠ some (ty, none)) ∨
    (∃ i ty, slotFor slots g.ty.name = some i ∧ slots[i]? = some (ty, none) ∧ ty.tid = g.ty.tid ∧ ty.name = g.ty.name ∧
      slots' = slots.set i (ty, some g) ∧ l' = l) := by
  unfold releaseField at h
  have rel : ∀ {x : List Slot × Locks}, (do let l ← l.release g; (.ok (slots, l) : R (List Slot × Locks))) = .ok x →
      g.dirty = false ∧ x = (slots, { l with held := l.held.erase g, log := l.log ++ [.released g] }) := by
    intro x hx
    unfold Locks.release at hx
    by_cases hd : g.dirty = true
    · rw [if_pos hd] at hx; cases hx
    · rw [if_neg hd, okB] at hx
      injection hx with hx
      exact ⟨by simpa using hd, hx.symm⟩
  cases hs : slotFor slots g.ty.name with
  | none =>
    rw [hs] at h
    obtain ⟨h1, h2⟩ := rel h
    injection h2 with h2 h3
    exact Or.inl ⟨h2, h1, h3, by intro i ty h; cases h⟩
  | some i =>
    rw [hs] at h
    obtain ⟨⟨ty, o⟩, h1, h2⟩ := slotFor_some hs
    simp only [h1] at h
    cases o with
    | some m =>
      obtain ⟨h3, h4⟩ := rel h
      injection h4 with h4 h5
      refine Or.inl ⟨h4, h3, h5, ?_⟩
      intro i' ty' hi'
      injection hi' with hi'
      subst hi'
      rw [h1]
      intro hh
      injection hh with hh
      injection hh with _ hh
      cases hh
    | none =>
      simp only [] at h
      by_cases ht : ty.tid = g.ty.tid
      · rw [if_neg (by simp [ht])] at h
        injection h with h
        injection h with h3 h4
        exact Or.inr ⟨i, ty, rfl, h1, ht, h2, h3.symm, h4.symm⟩
      · rw [if_pos ht] at h; cases h

/-- What all of them go through. -/
theorem releaseList_ok {slots slots' : List Slot} {l l' : Locks} {gs : List Guard} (h : releaseList slots l gs = .ok (slots', l')) :
    slots'.map (·.1) = slots.map (·.1) ∧
    (∀ (j : Nat) (ty : LockTy) (m : Guard), slots[j]? = some (ty, some m) → slots'[j]? = some (ty, some m)) ∧
    (∀ (j : Nat) (ty : LockTy) (m : Guard), slots'[j]? = some (ty, some m) → slots[j]? = some (ty, some m) ∨
      (slots[j]? = some (ty, none) ∧ slotFor slots ty.name = some j ∧ m.ty.tid = ty.tid ∧ m.ty.name = ty.name ∧
        gs.find? (fun g => g.ty.name = ty.name) = some m)) ∧
    (∀ g ∈ gs, ∀ (i : Nat) (ty : LockTy), slotFor slots g.ty.name = some i → slots'[i]? ≠ some (ty, none)) ∧
    ∃ extra, (slots'.filterMap (·.2) ++ extra).Perm (slots.filterMap (·.2) ++ gs) ∧ (∀ g ∈ extra, g.dirty = false) ∧ extra.Sublist gs ∧
      l'.log = l.log ++ extra.map .released ∧ l'.next = l.next ∧ l'.held = l.held.diff extra := by
  induction gs generalizing slots l with
  | nil =>
    injection h with h
    injection h with h1 h2
    subst h1 h2
    exact ⟨rfl, fun _ _ _ h => h, fun _ _ _ h => Or.inl h, by simp, [], by simp, by simp, by simp, by simp, rfl, rfl⟩
  | cons g gs ih =>
    unfold releaseList at h
    cases hf : releaseField slots l g with
    | error e => rw [hf] at h; cases h
    | ok x =>
      obtain ⟨s1, l1⟩ := x
      rw [hf, okB] at h
      obtain ⟨i1, i2, i3, i4, extra, i5, i6, i7, i8, i9, i10⟩ := ih h
      rcases releaseField_ok hf with ⟨rfl, hd, rfl, hno⟩ | ⟨i, ty, a1, a2, a3, a4, rfl, rfl⟩
      · refine ⟨i1, i2, ?_, ?_, g :: extra, ?_, ?_, ?_, ?_, i9, ?_⟩
        · intro j tj m hm
          rcases i3 j tj m hm with h1 | ⟨h1, h2, h3, h4, h5⟩
          · exact Or.inl h1
          · refine Or.inr ⟨h1, h2, h3, h4, ?_⟩
            rw [List.find?_cons_of_neg, h5]
            intro hn
            simp only [decide_eq_true_eq] at hn
            exact hno j tj (by rw [hn]; exact h2) h1
        · intro g' hg' i ty hi
          rcases List.mem_cons.1 hg' with rfl | hg'
          · intro hc
            obtain ⟨⟨t0, o0⟩, b1, b2⟩ := slotFor_some hi
            cases o0 with
            | none => exact hno i t0 hi b1
            | some m => rw [i2 i t0 m b1] at hc; injection hc with hc; injection hc with _ hc; cases hc
          · exact i4 g' hg' i ty hi
        · refine (List.perm_middle).trans ?_
          refine List.Perm.trans ?_ (List.perm_middle).symm
          exact i5.cons g
        · intro x hx
          rcases List.mem_cons.1 hx with rfl | hx
          · exact hd
          · exact i6 x hx
        · exact i7.cons_cons g
        · rw [i8]; simp
        · rw [i10, List.diff_cons]
      · have hlt : i < slots.length := by
          rcases Nat.lt_or_ge i slots.length with h | h
          · exact h
          · rw [List.getElem?_eq_none h] at a2; cases a2
        have hfst := map_set_fst slots i ty (some g) ⟨none, a2⟩
        have hfor : ∀ n, slotFor (slots.set i (ty, some g)) n = slotFor slots n := fun n => slotFor_names hfst n
        refine ⟨i1.trans hfst, ?_, ?_, ?_, extra, ?_, i6, i7.cons g, i8, i9, i10⟩
        · intro j tj m hm
          refine i2 j tj m ?_
          rw [List.getElem?_set]
          split
          · rename_i e; subst e
            rw [a2] at hm; injection hm with hm; injection hm with _ hm; cases hm
          · exact hm
        · intro j tj m hm
          rcases i3 j tj m hm with h1 | ⟨h1, h2, h3, h4, h5⟩
          · rw [List.getElem?_set] at h1
            split at h1
            · rename_i e; subst e
              injection h1 with h1
              injection h1 with h1 h2
              injection h2 with h2
              subst h1 h2
              refine Or.inr ⟨a2, ?_, a3.symm, a4.symm, ?_⟩
              · rw [a4]; exact a1
              · rw [List.find?_cons_of_pos]; simp [a4]
            · exact Or.inl h1
          · rw [hfor] at h2
            have hji : i ≠ j := by
              rintro rfl
              rw [List.getElem?_set, if_pos rfl, if_pos hlt] at h1
              injection h1 with h1; injection h1 with _ h1; cases h1
            refine Or.inr ⟨?_, h2, h3, h4, ?_⟩
            · rw [List.getElem?_set_ne hji] at h1; exact h1
            · rw [List.find?_cons_of_neg, h5]
              intro hn
              simp only [decide_eq_true_eq] at hn
              rw [← hn, a1] at h2
              injection h2 with h2
              exact hji h2
        · intro g' hg' i' ty' hi'
          rcases List.mem_cons.1 hg' with rfl | hg'
          · rw [a1] at hi'
            injection hi' with hi'
            subst hi'
            have := i2 i ty g' (by rw [List.getElem?_set, if_pos rfl, if_pos hlt])
            rw [this]
            intro hc; injection hc with hc; injection hc with _ hc; cases hc
          · exact i4 g' hg' i' ty' (by rw [hfor]; exact hi')
        · refine i5.trans ?_
          have : (slots.set i (ty, some g)).filterMap (·.2) |>.Perm (g :: slots.filterMap (·.2)) := by
            clear * - a2 hlt
            induction slots generalizing i with
            | nil => simp at hlt
            | cons s slots ih =>
              cases i with
              | zero =>
                simp only [List.getElem?_cons_zero, Option.some.injEq] at a2
                subst a2
                simp
              | succ i =>
                have ih := ih (i := i) (by simpa using a2) (by simpa using hlt)
                simp only [List.set_cons_succ]
                obtain ⟨st, so⟩ := s
                cases so with
                | none => simpa using ih
                | some m =>
                  show (m :: _).Perm (g :: m :: _)
                  exact (ih.cons m).trans (List.Perm.swap g m _)
          refine (this.append_right gs).trans ?_
          exact (List.perm_middle).symm

/-- What locking the missing ones does. -/
theorem lockMissing_ok {slots : List Slot} {l l' : Locks} {ctx : List Guard} (h : lockMissing l slots = .ok (ctx, l')) :
    ctx.length = slots.length ∧
    (∀ (j : Nat) (ty : LockTy) (m : Guard), slots[j]? = some (ty, some m) → ctx[j]? = some m) ∧
    (∀ (j : Nat) (ty : LockTy), slots[j]? = some (ty, none) → ∃ g, ctx[j]? = some g ∧ g.ty = ty) ∧
    ∃ new, (slots.filterMap (·.2) ++ new).Perm ctx ∧ l'.log = l.log ++ new.map .acquired ∧ l'.held = new.reverse ++ l.held ∧
      (∀ g ∈ new, l.next ≤ g.no ∧ g.dirty = false) ∧ (Compatible l.held → Compatible l'.held) := by
  induction slots generalizing l ctx l' with
  | nil =>
    injection h with h
    injection h with h1 h2
    subst h1 h2
    exact ⟨rfl, by simp, by simp, [], by simp, by simp, by simp, by simp, id⟩
  | cons s slots ih =>
    obtain ⟨ty, o⟩ := s
    cases o with
    | some m =>
      unfold lockMissing at h
      cases hr : lockMissing l slots with
      | error e => rw [hr] at h; cases h
      | ok x =>
        obtain ⟨gs, l1⟩ := x
        rw [hr, okB] at h
        injection h with h
        injection h with h1 h2
        subst h1 h2
        obtain ⟨i0, i1, i2, new, i3, i4, i5, i6, i7⟩ := ih hr
        refine ⟨by simp [i0], ?_, ?_, new, ?_, i4, i5, i6, i7⟩
        · intro j tj m' hj
          cases j with
          | zero => simp at hj; simp [hj.2]
          | succ j => simpa using i1 j tj m' (by simpa using hj)
        · intro j tj hj
          cases j with
          | zero => simp at hj
          | succ j => simpa using i2 j tj (by simpa using hj)
        · simpa using i3.cons m
    | none =>
      unfold lockMissing at h
      cases ha : l.acquire ty with
      | error e => rw [ha] at h; cases h
      | ok x =>
        obtain ⟨g, l1⟩ := x
        rw [ha, okB] at h
        simp only [] at h
        cases hr : lockMissing l1 slots with
        | error e => rw [hr] at h; cases h
        | ok y =>
          obtain ⟨gs, l2⟩ := y
          rw [hr, okB] at h
          injection h with h
          injection h with h1 h2
          subst h1 h2
          unfold Locks.acquire at ha
          by_cases hc : (l.held.any (fun g => conflicts g.ty ty)) = true
          · rw [if_pos hc] at ha; cases ha
          · rw [if_neg hc] at ha
            injection ha with ha
            injection ha with ha1 ha2
            obtain ⟨i0, i1, i2, new, i3, i4, i5, i6, i7⟩ := ih hr
            refine ⟨by simp [i0], ?_, ?_, g :: new, ?_, ?_, ?_, ?_, ?_⟩
            · intro j tj m' hj
              cases j with
              | zero => simp at hj
              | succ j => simpa using i1 j tj m' (by simpa using hj)
            · intro j tj hj
              cases j with
              | zero => simp at hj; exact ⟨g, rfl, by rw [← ha1]; exact hj⟩
              | succ j => simpa using i2 j tj (by simpa using hj)
            · simp only [List.filterMap_cons_none]
              exact (List.perm_middle).trans (i3.cons g)
            · rw [i4, ← ha2, ← ha1]; simp
            · rw [i5, ← ha2, ← ha1]; simp
            · intro x hx
              rcases List.mem_cons.1 hx with rfl | hx
              · rw [← ha1]; simp
              · have := i6 x hx
                rw [← ha2] at this
                simp only [] at this
                exact ⟨by omega, this.2⟩
            · intro hl
              refine i7 ?_
              rw [← ha2]
              simp only [Compatible, List.pairwise_cons]
              refine ⟨?_, hl⟩
              intro b hb
              rw [conflicts_comm, Bool.eq_false_iff]
              intro hcc
              exact hc (List.any_eq_true.2 ⟨b, hb, hcc⟩)

theorem from_inv {fields : List LockTy} {old : Old} {l l' : Locks} {ctx : List Guard} (h : ctxFrom fields old l = .ok (ctx, l')) :
    ∃ slots l1, releaseList (fields.map (fun ty => (ty, none))) l old.guards = .ok (slots, l1) ∧ lockMissing l1 slots = .ok (ctx, l') := by
  unfold ctxFrom at h
  rw [release_guards] at h
  cases hr : releaseList (fields.map (fun ty => (ty, none))) l old.guards with
  | error e => rw [hr] at h; cases h
  | ok x => rw [hr, okB] at h; exact ⟨x.1, x.2, rfl, h⟩

theorem slotFor_fields {fields : List LockTy} {j : Nat} {ty : LockTy} (hj : fields[j]? = some ty) (hf : ty.name ∉ (fields.take j).map LockTy.name) :
    slotFor (fields.map (fun ty => ((ty, none) : Slot))) ty.name = some j := by
  unfold slotFor
  rw [List.findIdx?_eq_some_iff_getElem]
  have hlt : j < fields.length := by
    rcases Nat.lt_or_ge j fields.length with h | h
    · exact h
    · rw [List.getElem?_eq_none h] at hj; cases hj
  have hj' : fields[j] = ty := by rw [List.getElem?_eq_getElem hlt] at hj; injection hj
  refine ⟨by simpa using hlt, by simp [hj'], ?_⟩
  intro i hi
  simp only [List.getElem_map, decide_eq_true_eq]
  intro he
  exact hf (List.mem_map.2 ⟨fields[i], List.mem_take_iff_getElem.2 ⟨i, by omega, rfl⟩, he⟩)

theorem diff_perm {l e r : List Guard} (h : l.Perm (e ++ r)) : (l.diff e).Perm r := by
  induction e generalizing l with
  | nil => simpa using h
  | cons a e ih =>
    rw [List.diff_cons]
    refine ih ?_
    simpa using h.erase a

theorem fields_fst (fields : List LockTy) : (fields.map (fun ty => ((ty, none) : Slot))).map (·.1) = fields := by
  induction fields with
  | nil => rfl
  | cons a l ih => simp only [List.map_cons, ih]

theorem fields_none (fields : List LockTy) : (fields.map (fun ty => ((ty, none) : Slot))).filterMap (·.2) = [] := by
  induction fields with
  | nil => rfl
  | cons a l ih => simpa using ih

end Context

open Context

/-- C47: when `from` returns, the new context holds one lock per field, of the field's type. For each type in both,
the old context's (first) lock is the new context's (first). All other old locks were released, and only then were
the missing ones acquired; no moved lock was touched. The thread then holds the new context's locks and those it
held besides the old context, and still no two that exclude each other. -/
theorem C47_from {fields : List LockTy} {old : Old} {l l' : Locks} {ctx : List Guard} (h : ctxFrom fields old l = .ok (ctx, l'))
    (hty : TypeIds (fields ++ old.guards.map Guard.ty)) (hold : ∀ g ∈ l.held ++ old.guards, g.no < l.next) :
    ctx.map Guard.ty = fields ∧
    (∀ (j : Nat) (ty : LockTy) (g : Guard), fields[j]? = some ty → ty.name ∉ (fields.take j).map LockTy.name →
      old.guards.find? (fun g => g.ty.name = ty.name) = some g → ctx[j]? = some g) ∧
    (∃ kept extra new : List Guard, (kept ++ extra).Perm old.guards ∧ (kept ++ new).Perm ctx ∧ (∀ g ∈ new, g ∉ l.held ++ old.guards) ∧
      l'.log = l.log ++ extra.map .released ++ new.map .acquired) ∧
    (∀ others, l.held.Perm (old.guards ++ others) → l'.held.Perm (ctx ++ others)) ∧
    (Compatible l.held → Compatible l'.held) := by
  obtain ⟨slots, l1, h1, h2⟩ := from_inv h
  obtain ⟨a1, a2, a3, a4, extra, a5, a6, a7, a8, a9, a10⟩ := releaseList_ok h1
  obtain ⟨b0, b1, b2, new, b3, b4, b5, b6, b7⟩ := lockMissing_ok h2
  have hfst : slots.map (·.1) = fields := by rw [a1, fields_fst]
  have hnone : (fields.map (fun ty => ((ty, none) : Slot))).filterMap (·.2) = [] := by
    exact fields_none fields
  rw [hnone, List.nil_append] at a5
  have hsl : ∀ (j : Nat) ty, fields[j]? = some ty → ∃ o, slots[j]? = some (ty, o) := by
    intro j ty hj
    rw [← hfst, List.getElem?_map] at hj
    cases e : slots[j]? with
    | none => rw [e] at hj; cases hj
    | some s =>
      rw [e] at hj
      injection hj with hj
      exact ⟨s.2, by rw [← hj]⟩
  have hsome : ∀ (j : Nat) ty m, slots[j]? = some (ty, some m) → m.ty = ty := by
    intro j ty m hm
    have hf : ty ∈ fields := by
      rw [← hfst]; exact List.mem_map.2 ⟨_, List.mem_of_getElem? hm, rfl⟩
    rcases a3 j ty m hm with hc | ⟨-, -, c3, -, c5⟩
    · rw [List.getElem?_map] at hc
      cases e : fields[j]? with
      | none => rw [e] at hc; cases hc
      | some x => rw [e] at hc; injection hc with hc; injection hc with _ hc; cases hc
    · exact hty _ (List.mem_append_right _ (List.mem_map.2 ⟨m, List.mem_of_find?_eq_some c5, rfl⟩)) _ (List.mem_append_left _ hf) c3
  refine ⟨?_, ?_, ⟨slots.filterMap (·.2), extra, new, a5, b3, ?_, ?_⟩, ?_, ?_⟩
  · have hlen : ctx.length = fields.length := by rw [b0, ← hfst, List.length_map]
    refine List.ext_getElem? ?_
    intro j
    rw [List.getElem?_map]
    cases hj : fields[j]? with
    | none =>
      have : ctx[j]? = none := by
        rw [List.getElem?_eq_none_iff] at hj ⊢
        omega
      rw [this]; rfl
    | some ty =>
      obtain ⟨o, ho⟩ := hsl j ty hj
      cases o with
      | none =>
        obtain ⟨g, c1, c2⟩ := b2 j ty ho
        rw [c1]; simp [c2]
      | some m => rw [b1 j ty m ho]; simp [hsome j ty m ho]
  · intro j ty g hj hf hg
    obtain ⟨o, ho⟩ := hsl j ty hj
    have hsf := slotFor_fields hj hf
    have hgm := List.mem_of_find?_eq_some hg
    have hgn : g.ty.name = ty.name := by have := List.find?_some hg; simpa using this
    cases o with
    | none => exact absurd ho (a4 g hgm j ty (by rw [hgn]; exact hsf))
    | some m =>
      rcases a3 j ty m ho with hc | ⟨-, -, -, -, c5⟩
      · rw [List.getElem?_map, hj] at hc
        injection hc with hc; injection hc with _ hc; cases hc
      · rw [hg] at c5
        injection c5 with c5
        subst c5
        exact b1 j ty g ho
  · intro g hg hm
    have := (b6 g hg).1
    rw [a9] at this
    have := hold g hm
    omega
  · rw [b4, a8]
  · intro others hp
    rw [b5, a10]
    have e1 : (l.held.diff extra).Perm (slots.filterMap (·.2) ++ others) := by
      have : l.held.Perm (extra ++ (slots.filterMap (·.2) ++ others)) := by
        refine hp.trans ((a5.symm.append_right others).trans ?_)
        rw [← List.append_assoc]
        exact (List.perm_append_comm).append_right others
      exact diff_perm this
    refine (e1.append_left new.reverse).trans ?_
    refine ((List.reverse_perm new).append_right _).trans ?_
    rw [← List.append_assoc]
    exact ((List.perm_append_comm).trans b3).append_right others
  · intro hc
    refine b7 ?_
    rw [a10]
    exact hc.sublist (List.diff_sublist _ _)

/-- C47: `new` is `from` nothing. -/
theorem C47_new (fields : List LockTy) (l : Locks) : ctxNew l fields = ctxFrom fields .unit l := by
  show _ = lockMissing l (fields.map (fun ty => (ty, none)))
  induction fields generalizing l with
  | nil => rfl
  | cons ty fields ih =>
    simp only [ctxNew, List.map_cons, lockMissing]
    cases l.acquire ty with
    | error e => rfl
    | ok x => simp only [okB]; rw [ih]

theorem releaseList_total {slots : List Slot} {l : Locks} {gs : List Guard} (hd : ∀ g ∈ gs, g.dirty = false)
    (ht : ∀ g ∈ gs, ∀ ty ∈ slots.map (·.1), ty.name = g.ty.name → ty.tid = g.ty.tid) :
    ∃ x, releaseList slots l gs = .ok x := by
  induction gs generalizing slots l with
  | nil => exact ⟨_, rfl⟩
  | cons g gs ih =>
    unfold releaseList
    have hf : ∃ x, releaseField slots l g = .ok x := by
      unfold releaseField Locks.release
      rw [if_neg (by simp [hd g (by simp)])]
      cases hs : slotFor slots g.ty.name with
      | none => exact ⟨_, rfl⟩
      | some i =>
        obtain ⟨⟨ty, o⟩, b1, b2⟩ := slotFor_some hs
        simp only [b1]
        cases o with
        | some m => exact ⟨_, rfl⟩
        | none =>
          simp only []
          rw [if_neg (by simp [ht g (by simp) ty (List.mem_map.2 ⟨_, List.mem_of_getElem? b1, rfl⟩) b2])]
          exact ⟨_, rfl⟩
    obtain ⟨⟨s1, l1⟩, hx⟩ := hf
    rw [hx, okB]
    have hfst : s1.map (·.1) = slots.map (·.1) := by
      have : releaseList slots l [g] = .ok (s1, l1) := by
        unfold releaseList; rw [hx, okB]; rfl
      exact (releaseList_ok this).1
    exact ih (fun g' hg' => hd g' (by simp [hg'])) (fun g' hg' ty hm => ht g' (by simp [hg']) ty (by rw [← hfst]; exact hm))

theorem lockMissing_total {slots : List Slot} {l : Locks}
    (hp : (slots.map (·.1)).Pairwise (fun a b => conflicts a b = false))
    (hh : ∀ ty, (ty, none) ∈ slots → ∀ g ∈ l.held, conflicts g.ty ty = false) : ∃ x, lockMissing l slots = .ok x := by
  induction slots generalizing l with
  | nil => exact ⟨_, rfl⟩
  | cons s slots ih =>
    obtain ⟨ty, o⟩ := s
    simp only [List.map_cons, List.pairwise_cons] at hp
    cases o with
    | some m =>
      obtain ⟨x, hx⟩ := ih (l := l) hp.2 (fun ty' h' => hh ty' (by simp [h']))
      unfold lockMissing
      rw [hx]; exact ⟨_, rfl⟩
    | none =>
      let g0 : Guard := { ty := ty, no := l.next, dirty := false }
      let l0 : Locks := { held := g0 :: l.held, next := l.next + 1, log := l.log ++ [LEv.acquired g0] }
      have ha : l.acquire ty = .ok (g0, l0) := by
        unfold Locks.acquire
        rw [if_neg]
        intro hc
        obtain ⟨g, h1, h2⟩ := List.any_eq_true.1 hc
        rw [hh ty (by simp) g h1] at h2; cases h2
      unfold lockMissing
      rw [ha, okB]
      obtain ⟨x, hx⟩ := ih (l := l0) hp.2 (by
        intro ty' h' g hg
        rcases List.mem_cons.1 hg with rfl | hg
        · exact hp.1 ty' (List.mem_map.2 ⟨_, h', rfl⟩)
        · exact hh ty' (by simp [h']) g hg)
      simp only []
      rw [hx]
      exact ⟨_, rfl⟩

/-- C47: `from` returns — no deadlock, no panic — if no field of the new context excludes another or a lock held
outside the old context, the old locks are flushed, and equal names mean equal types. In particular a read lock can
be exchanged for a write lock of the same table. -/
theorem C47_returns {fields : List LockTy} {old : Old} {l : Locks} {others : List Guard} (hheld : l.held.Perm (old.guards ++ others))
    (hty : TypeIds (fields ++ old.guards.map Guard.ty)) (hfl : ∀ g ∈ old.guards, g.dirty = false)
    (htw : ∀ g ∈ old.guards, ∀ ty ∈ fields, ty.name = g.ty.name → ty.tid = g.ty.tid)
    (hf : fields.Pairwise (fun a b => conflicts a b = false)) (ho : ∀ ty ∈ fields, ∀ g ∈ others, conflicts g.ty ty = false) :
    ∃ ctx l', ctxFrom fields old l = .ok (ctx, l') := by
  have hmm : (fields.map (fun ty => ((ty, none) : Slot))).map (·.1) = fields := fields_fst fields
  obtain ⟨⟨slots, l1⟩, h1⟩ := releaseList_total (slots := fields.map (fun ty => ((ty, none) : Slot))) (l := l) (gs := old.guards) hfl (by
    intro g hg ty hm; rw [hmm] at hm; exact htw g hg ty hm)
  obtain ⟨a1, a2, a3, a4, extra, a5, a6, a7, a8, a9, a10⟩ := releaseList_ok h1
  rw [hmm] at a1
  have hnone : (fields.map (fun ty => ((ty, none) : Slot))).filterMap (·.2) = [] := by
    exact fields_none fields
  rw [hnone, List.nil_append] at a5
  obtain ⟨⟨ctx, l'⟩, h2⟩ := lockMissing_total (slots := slots) (l := l1) (by rw [a1]; exact hf) (by
    intro ty hty' g hg
    have htf : ty ∈ fields := by rw [← a1]; exact List.mem_map.2 ⟨_, hty', rfl⟩
    have hg' : g ∈ slots.filterMap (·.2) ++ others := by
      have : (l.held.diff extra).Perm (slots.filterMap (·.2) ++ others) := by
        have : l.held.Perm (extra ++ (slots.filterMap (·.2) ++ others)) := by
          refine hheld.trans ((a5.symm.append_right others).trans ?_)
          rw [← List.append_assoc]
          exact (List.perm_append_comm).append_right others
        exact diff_perm this
      rw [a10] at hg
      exact this.mem_iff.1 hg
    rcases List.mem_append.1 hg' with hk | hk
    · obtain ⟨⟨ts, os⟩, c1, c2⟩ := List.mem_filterMap.1 hk
      simp only [] at c2
      subst c2
      obtain ⟨i, hi⟩ := List.getElem?_of_mem c1
      obtain ⟨j, hj⟩ := List.getElem?_of_mem hty'
      have hgt : g.ty = ts := by
        rcases a3 i ts g hi with hc | ⟨-, -, c3, -, c5⟩
        · rw [List.getElem?_map] at hc
          cases e : fields[i]? with
          | none => rw [e] at hc; cases hc
          | some x => rw [e] at hc; injection hc with hc; injection hc with _ hc; cases hc
        · exact hty _ (List.mem_append_right _ (List.mem_map.2 ⟨g, List.mem_of_find?_eq_some c5, rfl⟩)) _
            (List.mem_append_left _ (by rw [← a1]; exact List.mem_map.2 ⟨_, c1, rfl⟩)) c3
      have hij : i ≠ j := by
        rintro rfl
        rw [hi] at hj; injection hj with hj; injection hj with _ hj; cases hj
      have fi : fields[i]? = some ts := by rw [← a1, List.getElem?_map, hi]; rfl
      have fj : fields[j]? = some ty := by rw [← a1, List.getElem?_map, hj]; rfl
      rw [hgt]
      have li : i < fields.length := by
        rcases Nat.lt_or_ge i fields.length with h | h
        · exact h
        · rw [List.getElem?_eq_none h] at fi; cases fi
      have lj : j < fields.length := by
        rcases Nat.lt_or_ge j fields.length with h | h
        · exact h
        · rw [List.getElem?_eq_none h] at fj; cases fj
      rw [List.getElem?_eq_getElem li] at fi
      rw [List.getElem?_eq_getElem lj] at fj
      injection fi with fi
      injection fj with fj
      rw [← fi, ← fj]
      rcases Nat.lt_or_gt_of_ne hij with h | h
      · exact List.pairwise_iff_getElem.1 hf i j li lj h
      · rw [conflicts_comm]
        exact List.pairwise_iff_getElem.1 hf j i lj li h
    · exact ho ty htf g hk)
  refine ⟨ctx, l', ?_⟩
  unfold ctxFrom
  rw [release_guards, h1, okB]
  exact h2

/-- C47: dropping an unflushed lock panics: `from` does not return if the new context has no place for it. -/
theorem C47_unflushed {fields : List LockTy} {old : Old} {l : Locks} {g : Guard} (hg : g ∈ old.guards) (hd : g.dirty = true)
    (hn : ∀ ty ∈ fields, ty.name ≠ g.ty.name) : ∀ x, ctxFrom fields old l ≠ .ok x := by
  rintro ⟨ctx, l'⟩ h
  obtain ⟨slots, l1, h1, h2⟩ := from_inv h
  obtain ⟨a1, a2, a3, a4, extra, a5, a6, -⟩ := releaseList_ok h1
  have hnone : (fields.map (fun ty => ((ty, none) : Slot))).filterMap (·.2) = [] := by
    exact fields_none fields
  rw [hnone, List.nil_append] at a5
  rcases List.mem_append.1 (a5.mem_iff.2 hg) with hk | hk
  · obtain ⟨⟨ts, os⟩, c1, c2⟩ := List.mem_filterMap.1 hk
    simp only [] at c2
    subst c2
    obtain ⟨i, hi⟩ := List.getElem?_of_mem c1
    rcases a3 i ts g hi with hc | ⟨hc, -, -, c4, -⟩
    · rw [List.getElem?_map] at hc
      cases e : fields[i]? with
      | none => rw [e] at hc; cases hc
      | some x => rw [e] at hc; injection hc with hc; injection hc with _ hc; cases hc
    · rw [List.getElem?_map] at hc
      cases e : fields[i]? with
      | none => rw [e] at hc; cases hc
      | some x =>
        rw [e] at hc
        injection hc with hc
        injection hc with hc _
        subst hc
        exact hn x (List.mem_of_getElem? e) c4.symm
  · rw [a6 g hk] at hd; cases hd

/-- C47: two lock types with one name (twin properties, or two modules declaring the same table): handing the one to
a context that wants the other is undefined behaviour. -/
theorem C47_twins_ub {fields : List LockTy} {old : Old} {l : Locks} {pre post : List Guard} {g : Guard} {ty : LockTy} {j : Nat}
    (ho : old.guards = pre ++ g :: post) (hpre : ∀ p ∈ pre, p.ty.name ≠ g.ty.name)
    (hfl : ∀ p ∈ pre, p.dirty = false) (htw : ∀ p ∈ pre, ∀ ty ∈ fields, ty.name = p.ty.name → ty.tid = p.ty.tid)
    (hj : fields[j]? = some ty) (hf : ty.name ∉ (fields.take j).map LockTy.name) (hn : ty.name = g.ty.name) (ht : ty.tid ≠ g.ty.tid) :
    ctxFrom fields old l = .error .ub := by
  unfold ctxFrom
  have hmm : (fields.map (fun ty => ((ty, none) : Slot))).map (·.1) = fields := fields_fst fields
  obtain ⟨⟨slots, l1⟩, h1⟩ := releaseList_total (slots := fields.map (fun ty => ((ty, none) : Slot))) (l := l) (gs := pre) hfl (by
    intro g hg ty hm; rw [hmm] at hm; exact htw g hg ty hm)
  rw [release_guards, ho, releaseList_append, h1, okB]
  obtain ⟨a1, a2, a3, -⟩ := releaseList_ok h1
  have hsf := slotFor_fields hj hf
  rw [← slotFor_names a1, hn] at hsf
  obtain ⟨⟨t0, o0⟩, b1, b2⟩ := slotFor_some hsf
  have ht0 : t0 = ty := by
    have := congrArg (fun x => x[j]?) (a1.trans hmm)
    simp only [List.getElem?_map, b1, hj, Option.map_some, Option.some.injEq] at this
    exact this
  subst ht0
  have ho0 : o0 = none := by
    cases o0 with
    | none => rfl
    | some m =>
      rcases a3 j t0 m b1 with hc | ⟨-, -, -, c4, c5⟩
      · rw [List.getElem?_map, hj] at hc
        injection hc with hc; injection hc with _ hc; cases hc
      · exact absurd (c4.trans hn) (hpre m (List.mem_of_find?_eq_some c5))
  subst ho0
  have : releaseField slots l1 g = .error .ub := by
    unfold releaseField
    simp only [hsf, b1]
    rw [if_pos ht]
  simp only [releaseList]
  rw [this, errB, errB]

/-! ## A table read and another written; then the first written and a property read -/

/-- Locks of table 0 (read, write), table 1 and property 2. -/
def lockR0 : LockTy := ⟨"ref t0", 0, 0, false⟩
/-- `t0::Write` -/
def lockW0 : LockTy := ⟨"mut t0", 1, 0, true⟩
/-- `t1::Write` -/
def lockW1 : LockTy := ⟨"mut t1", 2, 1, true⟩
/-- `p::Read` -/
def lockProp : LockTy := ⟨"ref p", 3, 2, false⟩
/-- The twin of `p`. -/
def lockProp' : LockTy := ⟨"ref p", 4, 2, false⟩

/-- No locks. -/
def noLocks : Locks := { held := [], next := 0, log := [] }

/-- Read-to-write exchange of table 0, table 1 kept, the property added. -/
example : (do
    let (a, l) ← ctxNew noLocks [lockR0, lockW1]
    let (b, l) ← ctxFrom [lockProp, lockW1, lockW0] (.one (.ctx a)) l
    .ok (b.map Guard.no, l.held.map Guard.no, l.log) : R _).toOption =
    some ([2, 1, 3], [3, 2, 1], [.acquired ⟨lockR0, 0, false⟩, .acquired ⟨lockW1, 1, false⟩, .released ⟨lockR0, 0, false⟩,
      .acquired ⟨lockProp, 2, false⟩, .acquired ⟨lockW0, 3, false⟩]) := by decide

/-- The hypotheses of `C47_from` and `C47_returns` in that example. -/
example : TypeIds ([lockProp, lockW1, lockW0] ++ [lockR0, lockW1]) ∧ [lockProp, lockW1, lockW0].Pairwise (fun a b => conflicts a b = false) ∧
    Compatible [⟨lockW1, 1, false⟩, ⟨lockR0, 0, false⟩] := by
  refine ⟨?_, by decide, by unfold Compatible; decide⟩
  unfold TypeIds; decide

/-- An unflushed lock that is not wanted; a twin; a context that excludes itself. -/
example : (ctxFrom [lockProp] (.ctx [⟨lockW0, 0, true⟩]) { noLocks with held := [⟨lockW0, 0, true⟩], next := 1 }).isOk = false ∧
    (match ctxFrom [lockProp'] (.ctx [⟨lockProp, 0, false⟩]) { noLocks with held := [⟨lockProp, 0, false⟩], next := 1 } with
      | .error .ub => true | _ => false) = true ∧
    (match ctxNew noLocks [lockR0, lockW0] with | .error .deadlock => true | _ => false) = true := by decide

end V11
