import Verif.Lemmas.RegistryMore

/-!
# `add_domain`
-/

set_option linter.unusedSimpArgs false
set_option linter.unusedSectionVars false
set_option linter.unusedVariables false

namespace V11

variable {Ty : Type} [DecidableEq Ty] {V : Ty → Type} {P : Type} [DecidableEq P] {decl : P → PropDecl V}

theorem domain_at {u : List (MaybeDomain V)} {d : Instance V} (h : MaybeDomain.domain d ∈ u) : ∃ j : Nat, u[j]? = some (.domain d) := by
  obtain ⟨j, hj, e⟩ := List.mem_iff_getElem.1 h
  exact ⟨j, by rw [List.getElem?_eq_getElem hj, e]⟩

theorem get_lt {α : Type} {l : List α} {k : Nat} {a : α} (h : l[k]? = some a) : k < l.length := by
  by_contra hc
  rw [List.getElem?_eq_none (by omega)] at h; cases h

/-- The universe with its list of domains brought up to date. -/
def World.padded (w : World P V) (u : List (MaybeDomain V)) : List (MaybeDomain V) := u ++ (w.g.did2name.drop u.length).map .unset

theorem synced_eq {w : World P V} (h : WInv decl w) (hp : w.poisoned = false) {k : Nat} {u : List (MaybeDomain V)} (hk : w.unis[k]? = some u) :
    w.synced u = .ok (w.padded u) := by
  unfold World.synced
  rw [if_neg (by simp [hp]), if_pos (h.unis u (List.mem_of_getElem? hk)).len]
  rfl

theorem padded_length {w : World P V} {u : List (MaybeDomain V)} (hu : UOk w.g u) : (w.padded u).length = w.g.did2name.length := by
  unfold World.padded
  have := hu.len
  simp; omega

theorem padded_domain {w : World P V} {u : List (MaybeDomain V)} {j : Nat} {d : Instance V} : (w.padded u)[j]? = some (.domain d) ↔ u[j]? = some (.domain d) := by
  unfold World.padded
  constructor
  · intro h
    by_cases hlt : j < u.length
    · rwa [List.getElem?_append_left hlt] at h
    · rw [List.getElem?_append_right (by omega), List.getElem?_map] at h
      cases e : (w.g.did2name.drop u.length)[j - u.length]? with
      | none => rw [e] at h; cases h
      | some m => rw [e] at h; simp at h
  · exact fun h => prefix_get (List.prefix_append _ _) h

theorem hasDomain_at {w : World P V} (h : WInv decl w) {k : Nat} {u : List (MaybeDomain V)} (hk : w.unis[k]? = some u) {n : String} {info : DomainInfo}
    (hl : w.g.domains.lookup n = some info) : w.hasDomain k n ↔ ∃ d, u[info.id]? = some (.domain d) := by
  have hu := h.unis u (List.mem_of_getElem? hk)
  constructor
  · rintro ⟨u', d, h1, h2, h3⟩
    rw [hk] at h1; injection h1 with h1; subst h1
    obtain ⟨j, hj⟩ := domain_at h2
    obtain ⟨i, hi⟩ := hu.inst _ _ hj
    have := hi.look
    rw [h3, hl] at this
    injection this with this
    refine ⟨d, ?_⟩
    rw [this, hi.id]; exact hj
  · rintro ⟨d, hd⟩
    obtain ⟨i, hi⟩ := hu.inst _ _ hd
    exact ⟨u, d, hk, List.mem_of_getElem? hd, h.g.id_inj hi.look hl (by rw [hi.id])⟩

theorem getId_eq {w : World P V} (hp : w.poisoned = false) {n : String} {info : DomainInfo} (hl : w.g.domains.lookup n = some info) : w.getId n = .ok info.id := by
  unfold World.getId
  rw [if_neg (by simp [hp]), hl]

/-- The domain is there. -/
theorem addDomain_there {w : World P V} (h : WInv decl w) (hp : w.poisoned = false) {k : Nat} {u : List (MaybeDomain V)} (hk : w.unis[k]? = some u)
    {n : String} {info : DomainInfo} (hl : w.g.domains.lookup n = some info) {d : Instance V} (hd : u[info.id]? = some (.domain d)) :
    w.addDomain k n = (.ok (), { w with unis := w.unis.set k (w.padded u) }) := by
  unfold World.addDomain
  rw [hk]
  simp only []
  rw [synced_eq h hp hk]
  simp only []
  have : ({ w with unis := w.unis.set k (w.padded u) } : World P V).getId n = .ok info.id := getId_eq hp hl
  rw [this]
  simp only []
  rw [padded_domain.2 hd]
  simp only []
  rw [if_pos (by rfl)]

/-- The domain is not there. -/
theorem addDomain_new {w : World P V} (h : WInv decl w) (hp : w.poisoned = false) {k : Nat} {u : List (MaybeDomain V)} (hk : w.unis[k]? = some u)
    {n : String} {info : DomainInfo} (hl : w.g.domains.lookup n = some info) (hd : ∀ d, u[info.id]? ≠ some (.domain d)) :
    ∃ inst : Instance V, ∃ w0 : World P V, w0 = { w with g := w.g.update n (fun i => { i with locked := true }), unis := w.unis.set k (w.padded u) } ∧
      inst.name = n ∧ (∀ p ∈ inst.tables, p.2.trackers = [] ∧ p.2.poisoned = false) ∧ info.id < (w.padded u).length ∧ GInv w0.g ∧ Ext w.g w0.g ∧
      UOk w0.g ((w.padded u).set info.id (.domain inst)) ∧
      (w.addDomain k n).1 = (match (w0.initDomain ((w.padded u).set info.id (.domain inst)) n).1 with | none => .ok () | some p => .error p) ∧
      (w.addDomain k n).2 = { w0 with unis := w0.unis.set k (w0.initDomain ((w.padded u).set info.id (.domain inst)) n).2 } := by
  have hU := h.unis u (List.mem_of_getElem? hk)
  obtain ⟨inst, a1, a2, a3, a4, a5, a6⟩ := instantiate_ok h.g hl
  have hiname := (instantiate_fresh h.g hl a1).2.1
  have hlt : info.id < (w.padded u).length := by rw [padded_length hU]; exact get_lt (h.g.ids _ _ hl)
  refine ⟨inst, _, rfl, hiname, a6, hlt, a2, a3, (hU.append_unset.ext h.g a3).set _ a4, ?_⟩
  have hns : (w.padded u)[info.id].isSet = false := by
    cases e : (w.padded u)[info.id] with
    | unset m => rfl
    | domain d => exact absurd (padded_domain.1 (by rw [List.getElem?_eq_getElem hlt, e])) (hd d)
  unfold World.addDomain
  rw [hk]
  simp only []
  rw [synced_eq h hp hk]
  simp only []
  have : ({ w with unis := w.unis.set k (w.padded u) } : World P V).getId n = .ok info.id := getId_eq hp hl
  rw [this]
  simp only []
  rw [List.getElem?_eq_getElem hlt]
  simp only []
  rw [if_neg (by simp [hns])]
  rw [a1]
  simp only []
  split
  · rename_i u3 e3
    rw [e3]
    exact ⟨rfl, rfl⟩
  · rename_i p u3 e3
    rw [e3]
    exact ⟨rfl, rfl⟩

end V11
