import Verif.Props.Privilege
import Verif.Props.PieceQuiet

/-!
# C113: privileges are granted and revoked exactly when they have to be
-/

namespace Verif

open Spec

section
variable {opts : PlanOptions} {old new : Schema} {r r' : Rand} {stmts : List Statement}

/-- which privileges the diff adds and which it deletes -/
theorem privileges_diff_mem {o n : List TablePrivilege} {d : ListDiff TablePrivilege (OldNew TablePrivilege)}
    (h : diffLists o n buildPrivilegeDiff = .ok d) (ho : ∀ x ∈ o, PrivilegeOk x) (hn : ∀ x ∈ n, PrivilegeOk x)
    (hd : DistinctPrivileges n) (p : TablePrivilege) :
    (p ∈ d.adds ↔ p ∈ n ∧ p ∉ o) ∧ (p ∈ d.deletes ↔ p ∈ o ∧ p ∉ n) := by
  have hnn := distinct_names hn hd
  have hon := diffLists_old_nodup h
  obtain ⟨c1, c2, _, c4, c5, _⟩ := C08_every_object_once h hnn
  have differ : ∀ {y x : TablePrivilege} {i j : Nat} {e : OldNew TablePrivilege},
      buildPrivilegeDiff y x i j = .ok (e, true) → y ≠ x := by
    rintro y x i j e hb rfl
    simp [buildPrivilegeDiff] at hb
  have again : ∀ {y x : TablePrivilege} {i j : Nat}, y ∈ o → x ∈ n → Obj.getName y = Obj.getName x → y ≠ x →
      buildPrivilegeDiff y x i j = .ok (⟨y, x⟩, true) := by
    intro y x i j hy hx e hne
    obtain ⟨e1, e2⟩ := privilege_name_inj (ho y hy) (hn x hx) e
    have : y.isGrantable ≠ x.isGrantable := by
      intro e3
      cases y; cases x
      exact hne (by simp_all)
    simp [buildPrivilegeDiff, this]
  constructor
  · constructor
    · intro hp
      have hpn := c4.subset hp
      refine ⟨hpn, fun hpo => ?_⟩
      obtain ⟨i, hi⟩ := List.mem_iff_getElem?.mp hpn
      rcases (c1 i p hi).mp hp with hno | ⟨j, y, e, hj, en, hb⟩
      · exact hno (List.mem_map_of_mem hpo)
      · exact differ hb (List.inj_on_of_nodup_map hon (List.mem_of_getElem? hj) hpo en)
    · rintro ⟨hpn, hpo⟩
      obtain ⟨i, hi⟩ := List.mem_iff_getElem?.mp hpn
      refine (c1 i p hi).mpr ?_
      by_cases hm : Obj.getName p ∈ o.map Obj.getName
      · obtain ⟨y, hy, en⟩ := List.mem_map.mp hm
        obtain ⟨j, hj⟩ := List.mem_iff_getElem?.mp hy
        exact Or.inr ⟨j, y, _, hj, en, again hy hpn en fun h => hpo (h ▸ hy)⟩
      · exact Or.inl hm
  · constructor
    · intro hp
      have hpo := c5 p hp
      refine ⟨hpo, fun hpn => ?_⟩
      obtain ⟨j, hj⟩ := List.mem_iff_getElem?.mp hpo
      rcases (c2 j p hj).mp hp with hno | ⟨i, x, e, hi, en, hb⟩
      · exact hno (List.mem_map_of_mem hpn)
      · exact differ hb (List.inj_on_of_nodup_map hnn hpn (List.mem_of_getElem? hi) en)
    · rintro ⟨hpo, hpn⟩
      obtain ⟨j, hj⟩ := List.mem_iff_getElem?.mp hpo
      refine (c2 j p hj).mpr ?_
      by_cases hm : Obj.getName p ∈ n.map Obj.getName
      · obtain ⟨x, hx, en⟩ := List.mem_map.mp hm
        obtain ⟨i, hi⟩ := List.mem_iff_getElem?.mp hx
        exact Or.inr ⟨i, x, _, hi, en.symm, again hpo hx en.symm fun h => hpn (h ▸ hx)⟩
      · exact Or.inl hm

/-- **C113.**  On a table that stays, a plan grants exactly the privileges of the target that the source lacks and revokes
exactly those of the source that the target lacks. -/
theorem C113_privileges_granted_and_revoked (h : generateMigrationStatements r old new opts = .ok (stmts, r'))
    (ht : NamesUnique new.tables) {o x : Table} (ho : o ∈ old.tables) (hx : x ∈ new.tables) (e : o.name.fq = x.name.fq)
    (hp : o.isPartitioned = x.isPartitioned) (hq : o.parentTable = x.parentTable)
    (hoo : ∀ p ∈ o.privileges, PrivilegeOk p) (hxo : ∀ p ∈ x.privileges, PrivilegeOk p)
    (hdis : DistinctPrivileges x.privileges) (g p : String) :
    (∀ b, (∃ s ∈ stmts, s.ddl = .grant x.name p g b) ↔
      (⟨g, p, b⟩ : TablePrivilege) ∈ x.privileges ∧ (⟨g, p, b⟩ : TablePrivilege) ∉ o.privileges) ∧
    ((∃ s ∈ stmts, s.ddl = .revoke x.name p g) ↔
      ∃ b, (⟨g, p, b⟩ : TablePrivilege) ∈ o.privileges ∧ (⟨g, p, b⟩ : TablePrivilege) ∉ x.privileges) := by
  obtain ⟨d, ⟨dr⟩, ⟨run⟩⟩ := plan_runs h
  have hN := normalize_tables_nodup ht
  rcases plan_table dr run hN (mem_normalize_tables_of hx) with ⟨hm, _⟩ | ⟨td, htd, e1, _, _, l, hl, hf⟩
  · refine absurd ?_ (stays_not_added dr ht ho hx e hp hq hm)
    unfold packIf; split <;> rfl
  have en : td.new.name = x.name := by rw [e1]; rfl
  have ox : (normalizeTable x).privileges.Perm x.privileges := sortObjs_perm _
  have oo : (normalizeTable o).privileges.Perm o.privileges := sortObjs_perm _
  have key : ∀ q, (q ∈ td.privilegesDiff.adds ↔ q ∈ x.privileges ∧ q ∉ o.privileges) ∧
      (q ∈ td.privilegesDiff.deletes ↔ q ∈ o.privileges ∧ q ∉ x.privileges) := by
    intro q
    obtain ⟨td0, i, j, rfl, hb⟩ := stays_diff dr ht ho hx e htd (by rw [en])
    obtain ⟨_, _, _, _, _, _, _, _, b9⟩ := buildTableDiff_ok hb
    rw [orderIf_privileges, ← ox.mem_iff, ← oo.mem_iff]
    exact privileges_diff_mem b9 (fun y hy => hoo y (oo.mem_iff.mp hy)) (fun y hy => hxo y (ox.mem_iff.mp hy))
      ((ox.map _).nodup_iff.mpr hdis) q
  have inl : ∀ y : Ddl, y.tableBody x.name = true → ((∃ s ∈ stmts, s.ddl = y) ↔ ∃ s ∈ l, s.ddl = y) := by
    intro y hy
    have hfy := hf (fun s => decide (s.ddl = y)) (fun s hs => by rw [of_decide_eq_true hs]; exact hy)
    constructor <;> rintro ⟨s, hs, rfl⟩
    · have : s ∈ stmts.filter fun z => decide (z.ddl = s.ddl) := List.mem_filter.mpr ⟨hs, by simp⟩
      rw [hfy] at this
      exact ⟨s, (List.mem_filter.mp this).1, rfl⟩
    · have : s ∈ l.filter fun z => decide (z.ddl = s.ddl) := List.mem_filter.mpr ⟨hs, by simp⟩
      rw [← hfy] at this
      exact ⟨s, (List.mem_filter.mp this).1, rfl⟩
  obtain ⟨a1, a2, a3, a4, _⟩ := alter_privileges hl g p
  rw [en] at a1 a2 a3 a4
  constructor
  · intro b
    rw [inl _ (by simp [Ddl.tableBody]), ← (key _).1]
    exact ⟨fun ⟨s, hs, hd⟩ => a2 s hs b hd, fun hm => a4 _ hm⟩
  · rw [inl _ (by simp [Ddl.tableBody])]
    constructor
    · rintro ⟨s, hs, hd⟩
      obtain ⟨⟨g', p', b⟩, hy, rfl, rfl⟩ := a1 s hs hd
      exact ⟨b, (key _).2.mp hy⟩
    · rintro ⟨b, hb⟩
      exact a3 _ ((key _).2.mpr hb)

end

section
open Samples

/-- the hypotheses of C113 can be met: what differs is revoked and granted, and nothing else is granted -/
example : ∃ stmts r', generateMigrationStatements readerRand oldGrants newGrants opts = .ok (stmts, r') ∧ stmts.length = 6 ∧
    (∃ s ∈ stmts, s.ddl = .revoke (pub "a") "SELECT" "") ∧
    (∃ s ∈ stmts, s.ddl = .revoke (pub "a") "SELECT" "joe") ∧
    (∃ s ∈ stmts, s.ddl = .grant (pub "a") "SELECT" "joe" false) ∧
    (¬ ∃ s ∈ stmts, s.ddl = .grant (pub "a") "SELECT" "joe" true) ∧
    ¬ ∃ s ∈ stmts, s.ddl = .revoke (pub "a") "INSERT" "joe" := by
  obtain ⟨stmts, r', h, hl⟩ : ∃ stmts r', generateMigrationStatements readerRand oldGrants newGrants opts =
      .ok (stmts, r') ∧ stmts.length = 6 := exists_plan (by decide +kernel)
  have ok : ∀ t ∈ oldGrants.tables ++ newGrants.tables, ∀ p ∈ t.privileges, PrivilegeOk p := by
    have : ∀ t ∈ oldGrants.tables ++ newGrants.tables, ∀ p ∈ t.privileges,
        ':' ∉ p.privilege.toList ∧ p.grantee ≠ "PUBLIC" := by decide +kernel
    exact fun t ht p hp => ⟨(this t ht p hp).1, (this t ht p hp).2⟩
  have hc := C113_privileges_granted_and_revoked h (by unfold NamesUnique; decide +kernel) (o := oldGrants.tables[0])
    (x := newGrants.tables[0]) (List.getElem_mem _) (List.getElem_mem _) rfl rfl rfl
    (ok _ (List.mem_append_left _ (List.getElem_mem _))) (ok _ (List.mem_append_right _ (List.getElem_mem _)))
    (by unfold DistinctPrivileges; decide +kernel)
  refine ⟨stmts, r', h, hl, (hc "" "SELECT").2.mpr ⟨false, by decide +kernel⟩, (hc "joe" "SELECT").2.mpr ⟨true, by decide +kernel⟩,
    ((hc "joe" "SELECT").1 false).mpr (by decide +kernel), fun hh => ?_, fun hh => ?_⟩
  · exact absurd (((hc "joe" "SELECT").1 true).mp hh).1 (by decide +kernel)
  · obtain ⟨b, hb, _⟩ := (hc "joe" "INSERT").2.mp hh
    revert b; decide +kernel

end
end Verif
