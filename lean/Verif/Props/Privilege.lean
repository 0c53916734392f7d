import Verif.Lemmas.Inner
import Verif.Spec.Privilege
import Verif.Samples.Basic

/-!
# Privileges on tables
-/

namespace Verif

open Spec

/-! ### one grantee and one privilege -/

/-- the statements about one privilege of one grantee -/
def Ddl.isKey (t : SQName) (g p : String) : Ddl → Bool
  | .grant t' p' g' _ => t' = t ∧ g' = g ∧ p' = p
  | .revoke t' p' g' => t' = t ∧ g' = g ∧ p' = p
  | _ => false

def Ddl.isTable (t : SQName) : Ddl → Bool
  | .createTable t' _ _ => t' = t
  | .dropTable t' => t' = t
  | _ => false

/-- a statement, seen from one privilege of one grantee -/
def keyStep (t : SQName) (g p : String) (s : Option Bool) : Ddl → Option Bool
  | .createTable t' _ _ => if t' = t then none else s
  | .dropTable t' => if t' = t then none else s
  | .grant t' p' g' o => if t' = t ∧ g' = g ∧ p' = p then some (o || s == some true) else s
  | .revoke t' p' g' => if t' = t ∧ g' = g ∧ p' = p then none else s
  | _ => s

def runKey (t : SQName) (g p : String) (s : Option Bool) (l : List Statement) : Option Bool :=
  l.foldl (fun s x => keyStep t g p s x.ddl) s

theorem grantStep_key (t : SQName) (g p : String) (s : Grants) (x : Ddl) :
    grantStep t s x g p = keyStep t g p (s g p) x := by
  cases x <;> simp only [grantStep, keyStep]
  case createTable => split <;> rfl
  case dropTable => split <;> rfl
  case grant t' p' g' o =>
    by_cases h1 : t' = t <;> by_cases h2 : g = g' <;> by_cases h3 : p = p' <;>
      simp [h1, h2, h3, eq_comm]
  case revoke t' p' g' =>
    by_cases h1 : t' = t <;> by_cases h2 : g = g' <;> by_cases h3 : p = p' <;> simp [h1, h2, h3, eq_comm]

theorem runGrants_key (t : SQName) (g p : String) (l : List Statement) (s : Grants) :
    runGrants t s l g p = runKey t g p (s g p) l := by
  induction l generalizing s with
  | nil => rfl
  | cons x l ih =>
    have := ih (grantStep t s x.ddl)
    rw [grantStep_key] at this
    exact this

theorem runKey_filter {t : SQName} {g p : String} {P : Statement → Bool} {l : List Statement}
    (h : ∀ x ∈ l, P x = false → ∀ s, keyStep t g p s x.ddl = s) (s : Option Bool) :
    runKey t g p s l = runKey t g p s (l.filter P) := by
  induction l generalizing s with
  | nil => rfl
  | cons x l ih =>
    have ih := ih fun y hy => h y (List.mem_cons_of_mem _ hy)
    rw [List.filter_cons]
    cases hp : P x with
    | false => exact (congrArg (fun s => runKey t g p s l) (h x List.mem_cons_self hp s)).trans (ih s)
    | true => exact ih _

theorem runKey_append (t : SQName) (g p : String) (s : Option Bool) (a b : List Statement) :
    runKey t g p s (a ++ b) = runKey t g p (runKey t g p s a) b := List.foldl_append

theorem keyStep_other {t : SQName} {g p : String} {x : Ddl} (h1 : x.isKey t g p = false) (h2 : x.isTable t = false)
    (s : Option Bool) : keyStep t g p s x = s := by
  cases x <;> first
    | rfl
    | (simp only [Ddl.isKey, decide_eq_false_iff_not] at h1; exact if_neg h1)
    | (simp only [Ddl.isTable, decide_eq_false_iff_not] at h2; exact if_neg h2)

def Ddl.isRevokeOf (t : SQName) (g p : String) (x : Ddl) : Prop := x = .revoke t p g
def Ddl.isGrantOf (t : SQName) (g p : String) : Ddl → Prop
  | .grant t' p' g' _ => t' = t ∧ g' = g ∧ p' = p
  | _ => False

instance (t : SQName) (g p : String) (x : Ddl) : Decidable (x.isRevokeOf t g p) := by
  unfold Ddl.isRevokeOf; infer_instance
instance (t : SQName) (g p : String) (x : Ddl) : Decidable (x.isGrantOf t g p) := by
  cases x <;> unfold Ddl.isGrantOf <;> infer_instance

theorem Ddl.isKey_iff {t : SQName} {g p : String} {x : Ddl} :
    x.isKey t g p = true ↔ x.isRevokeOf t g p ∨ x.isGrantOf t g p := by
  cases x <;> simp [Ddl.isKey, Ddl.isRevokeOf, Ddl.isGrantOf]
  exact fun _ => and_comm

theorem Ddl.isGrantOf_iff {t : SQName} {g p : String} {x : Ddl} : x.isGrantOf t g p ↔ ∃ o, x = .grant t p g o := by
  constructor
  · intro h
    cases x with
    | grant t' p' g' o => obtain ⟨rfl, rfl, rfl⟩ := h; exact ⟨o, rfl⟩
    | _ => cases h
  · rintro ⟨o, rfl⟩; exact ⟨rfl, rfl, rfl⟩

/-- revokes leave nothing -/
theorem runKey_revokes {t : SQName} {g p : String} {l : List Statement} (h : ∀ x ∈ l, x.ddl.isRevokeOf t g p)
    (s : Option Bool) : runKey t g p s l = if l = [] then s else none := by
  induction l generalizing s with
  | nil => rfl
  | cons x l ih =>
    have hx : x.ddl = .revoke t p g := h x List.mem_cons_self
    have e : runKey t g p s (x :: l) = runKey t g p (keyStep t g p s x.ddl) l := rfl
    rw [e, ih (fun y hy => h y (List.mem_cons_of_mem _ hy)), hx]
    simp [keyStep]

/-- equal grants leave that grant -/
theorem runKey_grants {t : SQName} {g p : String} {o : Bool} {l : List Statement}
    (h : ∀ x ∈ l, x.ddl = .grant t p g o) (hl : l ≠ []) : runKey t g p none l = some o := by
  have key : ∀ l : List Statement, (∀ x ∈ l, x.ddl = .grant t p g o) → runKey t g p (some o) l = some o := by
    intro l h
    induction l with
    | nil => rfl
    | cons x l ih =>
      have e : runKey t g p (some o) (x :: l) = runKey t g p (keyStep t g p (some o) x.ddl) l := rfl
      rw [e, h x List.mem_cons_self]
      have : keyStep t g p (some o) (.grant t p g o) = some o := by cases o <;> simp [keyStep]
      rw [this]
      exact ih fun y hy => h y (List.mem_cons_of_mem _ hy)
  cases l with
  | nil => exact absurd rfl hl
  | cons x l =>
    have e : runKey t g p none (x :: l) = runKey t g p (keyStep t g p none x.ddl) l := rfl
    rw [e, h x List.mem_cons_self]
    have : keyStep t g p none (.grant t p g o) = some o := by cases o <;> simp [keyStep]
    rw [this]
    exact key l fun y hy => h y (List.mem_cons_of_mem _ hy)

/-! ### the names of privileges -/

theorem colon_inj {a b c d : List Char} (hb : ':' ∉ b) (hd : ':' ∉ d) (h : a ++ ':' :: b = c ++ ':' :: d) :
    a = c ∧ b = d := by
  induction a generalizing c with
  | nil =>
    cases c with
    | nil => simpa using h
    | cons x c =>
      simp only [List.nil_append, List.cons_append, List.cons.injEq] at h
      exact absurd (by rw [h.2]; simp) hb
  | cons x a ih =>
    cases c with
    | nil =>
      simp only [List.nil_append, List.cons_append, List.cons.injEq] at h
      exact absurd (by rw [← h.2]; simp) hd
    | cons y c =>
      simp only [List.cons_append, List.cons.injEq] at h
      obtain ⟨h1, h2⟩ := ih h.2
      exact ⟨by rw [h.1, h1], h2⟩

theorem privilege_name_inj {x y : TablePrivilege} (hx : PrivilegeOk x) (hy : PrivilegeOk y)
    (h : x.getName = y.getName) : x.grantee = y.grantee ∧ x.privilege = y.privilege := by
  have h' := congrArg String.toList h
  simp only [TablePrivilege.getName, String.toList_append] at h'
  have e : ":".toList = [':'] := rfl
  rw [e, List.append_assoc, List.append_assoc] at h'
  obtain ⟨h1, h2⟩ := colon_inj hx.privilege hy.privilege h'
  refine ⟨?_, String.toList_injective h2⟩
  have h1 := String.toList_injective h1
  split at h1 <;> split at h1
  · simp_all
  · exact absurd h1.symm hy.grantee
  · exact absurd h1 hx.grantee
  · exact h1

theorem privilege_name_of_key {x y : TablePrivilege} (h1 : x.grantee = y.grantee) (h2 : x.privilege = y.privilege) :
    x.getName = y.getName := by
  unfold TablePrivilege.getName; rw [h1, h2]

theorem distinct_names {l : List TablePrivilege} (hok : ∀ x ∈ l, PrivilegeOk x) (h : DistinctPrivileges l) :
    (l.map Obj.getName).Nodup := by
  refine (List.nodup_map_iff_inj_on ?_).mpr ?_
  · exact List.Nodup.of_map _ h
  · intro x hx y hy e
    obtain ⟨h1, h2⟩ := privilege_name_inj (hok x hx) (hok y hy) e
    exact List.inj_on_of_nodup_map h hx hy (by simp [h1, h2])

theorem grantsOf_mem {l : List TablePrivilege} (h : DistinctPrivileges l) {x : TablePrivilege} (hx : x ∈ l) :
    grantsOf l x.grantee x.privilege = some x.isGrantable := by
  unfold grantsOf
  cases e : l.find? fun y => y.grantee = x.grantee ∧ y.privilege = x.privilege with
  | none => rw [List.find?_eq_none] at e; exact absurd (e x hx) (by simp)
  | some y =>
    have h1 := List.mem_of_find?_eq_some e
    have h2 := List.find?_some e
    simp only [decide_eq_true_eq] at h2
    have : y = x := List.inj_on_of_nodup_map h h1 hx (by simp [h2.1, h2.2])
    rw [this]; rfl

theorem grantsOf_none {l : List TablePrivilege} {g p : String} :
    grantsOf l g p = none ↔ ∀ x ∈ l, ¬ (x.grantee = g ∧ x.privilege = p) := by
  unfold grantsOf
  rw [Option.map_eq_none_iff, List.find?_eq_none]
  simp

theorem grantsOf_some {l : List TablePrivilege} {g p : String} {o : Bool} (h : grantsOf l g p = some o) :
    ∃ x ∈ l, x.grantee = g ∧ x.privilege = p ∧ x.isGrantable = o := by
  unfold grantsOf at h
  obtain ⟨x, h1, h2⟩ := Option.map_eq_some_iff.mp h
  have h3 := List.find?_some h1
  simp only [decide_eq_true_eq] at h3
  exact ⟨x, List.mem_of_find?_eq_some h1, h3.1, h3.2, h2⟩

/-! ### the diff of the privileges -/

section
variable {o n : List TablePrivilege} {r : ListDiff TablePrivilege (OldNew TablePrivilege)}

/-- how the diff relates to the privileges before and after -/
theorem privileges_diff (h : diffLists o n buildPrivilegeDiff = .ok r) (ho : ∀ x ∈ o, PrivilegeOk x)
    (hn : ∀ x ∈ n, PrivilegeOk x) (hd : DistinctPrivileges n) (g p : String) :
    (∀ x ∈ r.adds, x.grantee = g → x.privilege = p → grantsOf n g p = some x.isGrantable ∧
      (grantsOf o g p = none ∨ ∃ y ∈ r.deletes, y.grantee = g ∧ y.privilege = p)) ∧
    ((∀ x ∈ r.adds, ¬ (x.grantee = g ∧ x.privilege = p)) → (∃ y ∈ r.deletes, y.grantee = g ∧ y.privilege = p) →
      grantsOf n g p = none) ∧
    ((∀ x ∈ r.adds, ¬ (x.grantee = g ∧ x.privilege = p)) → (∀ x ∈ r.deletes, ¬ (x.grantee = g ∧ x.privilege = p)) →
      grantsOf o g p = grantsOf n g p) := by
  have hnn := distinct_names hn hd
  have hon := diffLists_old_nodup h
  have hod : DistinctPrivileges o := by
    unfold DistinctPrivileges
    refine (List.nodup_map_iff_inj_on (List.Nodup.of_map _ hon)).mpr ?_
    intro x hx y hy e
    simp only [Prod.mk.injEq] at e
    exact List.inj_on_of_nodup_map hon hx hy (privilege_name_of_key e.1 e.2)
  obtain ⟨c1, c2, _, c4, c5, _⟩ := C08_every_object_once h hnn
  refine ⟨?_, ?_, ?_⟩
  · rintro x hx rfl rfl
    have hxn := c4.subset hx
    refine ⟨grantsOf_mem hd hxn, ?_⟩
    obtain ⟨i, hi⟩ := List.mem_iff_getElem?.mp hxn
    rcases (c1 i x hi).mp hx with hno | ⟨j, y, d, hj, e, hb⟩
    · left
      rw [grantsOf_none]
      rintro y hy ⟨e1, e2⟩
      exact hno (List.mem_map.mpr ⟨y, hy, privilege_name_of_key e1 e2⟩)
    · right
      have hyo := List.mem_of_getElem? hj
      obtain ⟨e1, e2⟩ := privilege_name_inj (ho y hyo) (hn x hxn) e
      exact ⟨y, (c2 j y hj).mpr (Or.inr ⟨i, x, d, hi, e, hb⟩), e1, e2⟩
  · rintro hno ⟨y, hy, rfl, rfl⟩
    rw [grantsOf_none]
    rintro x hx ⟨e1, e2⟩
    obtain ⟨j, hj⟩ := List.mem_iff_getElem?.mp (c5 y hy)
    rcases (c2 j y hj).mp hy with h1 | ⟨i, x', d, hi, e, hb⟩
    · exact h1 (List.mem_map.mpr ⟨x, hx, privilege_name_of_key e1 e2⟩)
    · have hx' := List.mem_of_getElem? hi
      obtain ⟨e3, e4⟩ := privilege_name_inj (ho y (c5 y hy)) (hn x' hx') e
      exact hno x' ((c1 i x' hi).mpr (Or.inr ⟨j, y, d, hj, e, hb⟩)) ⟨e3.symm, e4.symm⟩
  · intro hno hno'
    cases e : grantsOf n g p with
    | none =>
      rw [grantsOf_none] at e ⊢
      rintro y hy ⟨rfl, rfl⟩
      obtain ⟨j, hj⟩ := List.mem_iff_getElem?.mp hy
      refine hno' y ((c2 j y hj).mpr (Or.inl ?_)) ⟨rfl, rfl⟩
      intro hm
      obtain ⟨x, hx, e2⟩ := List.mem_map.mp hm
      exact e x hx (privilege_name_inj (hn x hx) (ho y hy) e2)
    | some b =>
      obtain ⟨x, hx, rfl, rfl, rfl⟩ := grantsOf_some e
      obtain ⟨i, hi⟩ := List.mem_iff_getElem?.mp hx
      have hh := (not_congr (c1 i x hi)).mp fun hx => hno x hx ⟨rfl, rfl⟩
      rw [not_or, not_not] at hh
      obtain ⟨hm, hh⟩ := hh
      obtain ⟨y, hy, e2⟩ := List.mem_map.mp hm
      obtain ⟨j, hj⟩ := List.mem_iff_getElem?.mp hy
      obtain ⟨e3, e4⟩ := privilege_name_inj (ho y hy) (hn x hx) e2
      have : y.isGrantable = x.isGrantable := by
        by_contra hne
        exact hh ⟨j, y, ⟨y, x⟩, hj, e2, by simp [buildPrivilegeDiff, hne]⟩
      rw [← e3, ← e4, ← this]
      exact grantsOf_mem hod hy

end

/-! ### the statements -/

section
variable {g : TableGen} {d : TableDiff} {stmts : List Statement}

/-- the statements about privileges among those altering a table -/
theorem alter_privileges (h : yields (g.alter d) stmts) (x p : String) :
    (∀ s ∈ stmts, s.ddl.isRevokeOf d.new.name x p → ∃ y ∈ d.privilegesDiff.deletes, y.grantee = x ∧ y.privilege = p) ∧
    (∀ s ∈ stmts, ∀ o, s.ddl = .grant d.new.name p x o → ⟨x, p, o⟩ ∈ d.privilegesDiff.adds) ∧
    (∀ y ∈ d.privilegesDiff.deletes, ∃ s ∈ stmts, s.ddl.isRevokeOf d.new.name y.grantee y.privilege) ∧
    (∀ y ∈ d.privilegesDiff.adds, ∃ s ∈ stmts, s.ddl = .grant d.new.name y.privilege y.grantee y.isGrantable) ∧
    AllBefore (fun s => s.ddl.isRevokeOf d.new.name x p) (fun s => s.ddl.isGrantOf d.new.name x p) stmts := by
  have sh : ∀ s ∈ stmts, AlterShape g d s := fun s hs => (table_alter_origin h hs).shape
  obtain ⟨run⟩ := table_run h
  refine ⟨?_, ?_, ?_, ?_, ?_⟩
  · intro s hs hr
    unfold Ddl.isRevokeOf at hr
    cases sh s hs with
    | revoke q hq => simp only [stmt, Ddl.revoke.injEq] at hr; exact ⟨q, hq, hr.2.2, hr.2.1⟩
    | column cd hcd s hs => cases hs <;> cases hr
    | _ => cases hr
  · intro s hs o hr
    cases sh s hs with
    | grant q hq => simp only [stmt, Ddl.grant.injEq] at hr; rw [← hr.2.1, ← hr.2.2.1, ← hr.2.2.2]; exact hq
    | column cd hcd s hs => cases hs <;> cases hr
    | _ => cases hr
  · intro y hy
    cases hp : d.new.isPartition with
    | true =>
      have := (TableGen.alterPartition_empty (run.hpartition hp)).2.2
      rw [(ListDiff.isEmpty_iff.mp this).2.1] at hy; cases hy
    | false =>
      obtain ⟨base⟩ := base_run (run.hbase hp)
      obtain ⟨l, h1, h2⟩ := stmts_of_delete (m := Except Err) base.hprivileges hy
      cases h1
      have := base.mem_ordered.mpr (Or.inr (Or.inr (Or.inr (h2 _ List.mem_cons_self))))
      obtain ⟨a, b, e, _⟩ := run.around base
      rw [e]
      exact ⟨_, List.mem_append_left _ (List.mem_append_right _ this), rfl⟩
  · intro y hy
    cases hp : d.new.isPartition with
    | true =>
      have := (TableGen.alterPartition_empty (run.hpartition hp)).2.2
      rw [(ListDiff.isEmpty_iff.mp this).1] at hy; cases hy
    | false =>
      obtain ⟨base⟩ := base_run (run.hbase hp)
      obtain ⟨l, h1, h2⟩ := stmts_of_add (m := Except Err) base.hprivileges hy
      cases h1
      have := base.mem_ordered.mpr (Or.inr (Or.inr (Or.inr (h2 _ List.mem_cons_self))))
      obtain ⟨a, b, e, _⟩ := run.around base
      rw [e]
      exact ⟨_, List.mem_append_left _ (List.mem_append_right _ this), rfl⟩
  · cases hp : d.new.isPartition with
    | true =>
      have he := (ListDiff.isEmpty_iff.mp (TableGen.alterPartition_empty (run.hpartition hp)).2.2).1
      refine allBefore_of_not_right ?_
      intro s hs hg
      obtain ⟨o, hg⟩ := Ddl.isGrantOf_iff.mp hg
      cases sh s hs with
      | grant q hq => rw [he] at hq; cases hq
      | column cd hcd s hs => cases hs <;> cases hg
      | _ => cases hg
    | false =>
      obtain ⟨base⟩ := base_run (run.hbase hp)
      obtain ⟨a, b, e, ha, hb⟩ := run.around base
      rw [e]
      refine allBefore_around (base.allBefore ?_) ?_ ?_
      · intro u s v s' hs hs' hr hg
        obtain ⟨o, hg⟩ := Ddl.isGrantOf_iff.mp hg
        obtain ⟨q, e1, rfl⟩ : ∃ q : TablePrivilege, (q.grantee = x ∧ q.privilege = p) ∧
            u = PrivilegeGen.vertexId d.new.name q .delete := by
          unfold Ddl.isRevokeOf at hr
          cases hs with
          | revoke q hq hid => simp only [stmt, Ddl.revoke.injEq] at hr; exact ⟨q, ⟨hr.2.2, hr.2.1⟩, hid⟩
          | column cd hcd s hs => cases hs <;> cases hr
          | _ => cases hr
        obtain ⟨q', hq', e2, rfl⟩ : ∃ q ∈ d.privilegesDiff.adds, (q.grantee = x ∧ q.privilege = p) ∧
            v = PrivilegeGen.vertexId d.new.name q .addAlter := by
          cases hs' with
          | grant q hq hid => simp only [stmt, Ddl.grant.injEq] at hg; exact ⟨q, hq, ⟨hg.2.2.1, hg.2.1⟩, hid⟩
          | column cd hcd s hs => cases hs <;> cases hg
          | _ => cases hg
        obtain ⟨deps, h1, h2⟩ := deps_of_add (m := Except Err) base.hprivileges hq'
        cases h1
        have := base.declared_before (p := base.privileges) (by simp) (h2 _ List.mem_cons_self)
        have e3 : q.getName = q'.getName := privilege_name_of_key (e1.1.trans e2.1.symm) (e1.2.trans e2.2.symm)
        refine .single ?_
        unfold PrivilegeGen.vertexId at this ⊢
        rw [e3]; exact this
      · intro s hs hg
        obtain ⟨o, hg⟩ := Ddl.isGrantOf_iff.mp hg
        have := ha s hs
        rw [hg] at this; cases this
      · intro s hs hg
        have := hb s hs
        unfold Ddl.isRevokeOf at hg
        rw [hg] at this; cases this

end

section
variable {opts : PlanOptions} {old new : Schema} {rand r' : Rand} {stmts : List Statement}

theorem key_filter (t : SQName) (g p : String) (l : List Statement) (s : Option Bool) (h : ∀ x ∈ l, x.ddl.isTable t = false) :
    runKey t g p s l = runKey t g p s (l.filter fun x => x.ddl.isKey t g p) :=
  runKey_filter (fun x hx hk s => keyStep_other hk (h x hx) s) s

theorem Ddl.isKey_tableBody {t : SQName} {g p : String} {x : Ddl} (h : x.isKey t g p = true) : x.tableBody t = true := by
  cases x <;> simp_all [Ddl.isKey, Ddl.tableBody]

/-- altering a table turns its privileges into the new ones -/
theorem alter_grants {g : TableGen} {d : TableDiff} {l : List Statement} (h : yields (g.alter d) l)
    (hd : diffLists d.old.privileges d.new.privileges buildPrivilegeDiff = .ok d.privilegesDiff)
    (ho : ∀ x ∈ d.old.privileges, PrivilegeOk x) (hn : ∀ x ∈ d.new.privileges, PrivilegeOk x)
    (hdis : DistinctPrivileges d.new.privileges) (x p : String) :
    runKey d.new.name x p (grantsOf d.old.privileges x p) (l.filter fun s => s.ddl.isKey d.new.name x p) =
      grantsOf d.new.privileges x p := by
  obtain ⟨m1, m2, m3, m4, hb⟩ := alter_privileges h x p
  obtain ⟨p1, p2, p3⟩ := privileges_diff hd ho hn hdis x p
  have e : (l.filter fun s => s.ddl.isKey d.new.name x p) = l.filter (fun s => s.ddl.isRevokeOf d.new.name x p) ++
      l.filter fun s => s.ddl.isGrantOf d.new.name x p := by
    refine Eq.trans (List.filter_congr fun s _ => ?_) (hb.filter_eq ?_)
    · rw [Bool.eq_iff_iff, decide_eq_true_eq]; exact Ddl.isKey_iff
    · rintro s ⟨h1, h2⟩
      obtain ⟨o, h2⟩ := Ddl.isGrantOf_iff.mp h2
      unfold Ddl.isRevokeOf at h1
      rw [h1] at h2; cases h2
  rw [e, runKey_append, runKey_revokes (l := l.filter _) (fun y hy => of_decide_eq_true (List.mem_filter.mp hy).2) (grantsOf d.old.privileges x p)]
  have hr : l.filter (fun s => s.ddl.isRevokeOf d.new.name x p) = [] ↔
      ∀ y ∈ d.privilegesDiff.deletes, ¬ (y.grantee = x ∧ y.privilege = p) := by
    rw [List.filter_eq_nil_iff]
    constructor
    · rintro h y hy ⟨rfl, rfl⟩
      obtain ⟨s, hs, e⟩ := m3 y hy
      exact h s hs (by simpa using e)
    · intro h s hs e
      obtain ⟨y, hy, e⟩ := m1 s hs (by simpa using e)
      exact h y hy e
  by_cases ha : ∃ y ∈ d.privilegesDiff.adds, y.grantee = x ∧ y.privilege = p
  · obtain ⟨y, hy, rfl, rfl⟩ := ha
    obtain ⟨q1, q2⟩ := p1 y hy rfl rfl
    have e2 : (if l.filter (fun s => s.ddl.isRevokeOf d.new.name y.grantee y.privilege) = [] then
        grantsOf d.old.privileges y.grantee y.privilege else none) = none := by
      split
      · rename_i h'
        rcases q2 with q2 | ⟨z, hz, q2⟩
        · exact q2
        · exact absurd q2 (hr.mp h' z hz)
      · rfl
    rw [e2, q1]
    refine runKey_grants ?_ ?_
    · intro s hs
      obtain ⟨hs, hg⟩ := List.mem_filter.mp hs
      obtain ⟨o, hg⟩ := Ddl.isGrantOf_iff.mp (of_decide_eq_true hg)
      have := (p1 _ (m2 s hs o hg) rfl rfl).1
      rw [q1, Option.some.injEq] at this
      rw [hg, this]
    · obtain ⟨s, hs, e⟩ := m4 y hy
      refine List.ne_nil_of_mem (List.mem_filter.mpr ⟨hs, ?_⟩)
      rw [decide_eq_true_eq, Ddl.isGrantOf_iff]; exact ⟨_, e⟩
  · have ha : ∀ y ∈ d.privilegesDiff.adds, ¬ (y.grantee = x ∧ y.privilege = p) := fun y hy h => ha ⟨y, hy, h⟩
    have e2 : l.filter (fun s => s.ddl.isGrantOf d.new.name x p) = [] := by
      rw [List.filter_eq_nil_iff]
      intro s hs hg
      obtain ⟨o, hg⟩ := Ddl.isGrantOf_iff.mp (of_decide_eq_true hg)
      exact ha _ (m2 s hs o hg) ⟨rfl, rfl⟩
    rw [e2]
    show (if _ then _ else _) = _
    split
    · rename_i h'; exact p3 ha (hr.mp h')
    · rename_i h'
      have := (not_congr hr).mp h'
      push Not at this
      exact (p2 ha this).symm

/-- a new table has the new privileges -/
theorem add_grants {g : TableGen} {t : Table} {l : List Statement} (h : g.add t = .ok l)
    (hdis : DistinctPrivileges t.privileges) (x p : String) (s : Option Bool) :
    runKey t.name x p s (l.filter fun s => s.ddl.tableBody t.name) = grantsOf t.privileges x p := by
  obtain ⟨ccs, cols, rest, _, _, e, hrest⟩ := TableGen.add_create h
  have hg : ∀ q ∈ t.privileges, ∃ s ∈ rest, s.ddl = .grant t.name q.privilege q.grantee q.isGrantable := by
    obtain ⟨run⟩ := add_run h
    intro q hq
    obtain ⟨b, hb, hs⟩ := mem_concatMapM_of run.hprivileges hq
    cases hb
    have h1 := List.mem_map_of_mem (f := fun s : Statement => { s with hazards := [] }) (hs _ List.mem_cons_self)
    have h2 := (iff_of_eq (congrArg (_ ∈ ·) run.hstmts)).mpr (List.mem_cons_of_mem _ (List.mem_append_right _ h1))
    rw [e] at h2
    rcases List.mem_cons.mp h2 with h2 | h2
    · cases h2
    · exact ⟨_, h2, rfl⟩
  rw [← runKey_filter (P := fun s => s.ddl.tableBody t.name)]
  · rw [e]
    have e1 : ∀ x0, runKey t.name x p s (x0 :: rest) = runKey t.name x p (keyStep t.name x p s x0.ddl) rest := fun _ => rfl
    rw [e1]
    have e2 : ∀ a b, keyStep t.name x p s (Ddl.createTable t.name a b) = none := fun a b => if_pos rfl
    show runKey t.name x p (keyStep t.name x p s (Ddl.createTable _ _ _)) rest = _
    rw [e2, key_filter]
    · have hk : ∀ s ∈ rest.filter (fun s => s.ddl.isKey t.name x p), ∃ q ∈ t.privileges,
          (q.grantee = x ∧ q.privilege = p) ∧ s.ddl = .grant t.name p x q.isGrantable := by
        intro s hs
        obtain ⟨hs, hk⟩ := List.mem_filter.mp hs
        cases (hrest s hs).1 with
        | grant q hq =>
          simp only [stmt, Ddl.isKey, decide_eq_true_eq] at hk
          refine ⟨q, hq, ⟨hk.2.1, hk.2.2⟩, ?_⟩
          rw [← hk.2.1, ← hk.2.2]; rfl
        | _ => cases hk
      cases hgr : grantsOf t.privileges x p with
      | none =>
        rw [grantsOf_none] at hgr
        rw [List.eq_nil_iff_forall_not_mem.mpr fun s hs => let ⟨q, hq, h1, _⟩ := hk s hs; hgr q hq h1]
        rfl
      | some o =>
        obtain ⟨q, hq, rfl, rfl, rfl⟩ := grantsOf_some hgr
        refine runKey_grants ?_ ?_
        · intro s hs
          obtain ⟨q', hq', e3, e4⟩ := hk s hs
          have : q' = q := List.inj_on_of_nodup_map hdis hq' hq (by simp [e3])
          rw [e4, this]
        · obtain ⟨s, hs, e3⟩ := hg q hq
          exact List.ne_nil_of_mem (List.mem_filter.mpr ⟨hs, by rw [e3]; simp [Ddl.isKey]⟩)
    · intro s hs
      cases hd : s.ddl with
      | createTable => exact absurd hd ((hrest s hs).2 _ _ _)
      | dropTable => cases (hrest s hs).1 <;> cases hd
      | _ => rfl
  · intro s hs hb s'
    obtain ⟨_, _, hsh⟩ := TableGen.add_shape h hs
    rw [hsh.tableBody] at hb
    simp at hb

theorem grantsOf_perm {l l' : List TablePrivilege} (h : l.Perm l') (hd : DistinctPrivileges l) : grantsOf l = grantsOf l' := by
  have hd' : DistinctPrivileges l' := (h.map _).nodup_iff.mp hd
  funext g p
  cases e : grantsOf l g p with
  | none => rw [grantsOf_none] at e; exact (grantsOf_none.mpr fun x hx => e x (h.mem_iff.mpr hx)).symm
  | some o =>
    obtain ⟨x, hx, rfl, rfl, rfl⟩ := grantsOf_some e
    exact (grantsOf_mem hd' (h.mem_iff.mp hx)).symm

/-- C25: after the plan, every table of the new schema has exactly the privileges of the new schema, each with or without
grant option as there: those of the old table, if a table of that name existed, become the new ones; otherwise the table is
created and gets them.

Partial: no role is called `PUBLIC`, see `C25_role_named_public_violated`, and no privilege contains a colon. -/
theorem C25_privileges_become_those_of_the_target_partial
    (h : generateMigrationStatements rand old new opts = .ok (stmts, r'))
    (hn : (new.tables.map Obj.getName).Nodup) {t : Table} (ht : t ∈ new.tables)
    (hok : ∀ p ∈ t.privileges, PrivilegeOk p) (hdis : DistinctPrivileges t.privileges) :
    (∀ o ∈ old.tables, o.name = t.name → (∀ p ∈ o.privileges, PrivilegeOk p) →
      runGrants t.name (grantsOf o.privileges) stmts = grantsOf t.privileges) ∧
    (Obj.getName t ∉ old.tables.map Obj.getName → ∀ s, runGrants t.name s stmts = grantsOf t.privileges) := by
  obtain ⟨d, ⟨dr, run, _⟩, hc⟩ := plan_table_cases h hn ht
  have hperm : (normalizeTable t).privileges.Perm t.privileges := sortObjs_perm _
  have hdis' : DistinctPrivileges (normalizeTable t).privileges := (hperm.map _).nodup_iff.mpr hdis
  rcases hc with ⟨l, hl, hf, hb⟩ | ⟨td, htd, e1, o', ho', e2, e3, ⟨td0, i, j, hbd, rfl⟩, hno, l, hl, hf⟩
  · have key : ∀ s, runGrants t.name s stmts = grantsOf t.privileges := by
      intro s
      rw [← grantsOf_perm hperm hdis']
      have ep : (packIf opts (normalizeTable t)).privileges = (normalizeTable t).privileges := by unfold packIf; split <;> rfl
      have en : (packIf opts (normalizeTable t)).name = t.name := by unfold packIf; split <;> rfl
      funext g p
      rw [runGrants_key, runKey_filter (P := fun x => x.ddl = .dropTable t.name ∨ x.ddl.tableBody t.name = true)]
      · rw [hb.filter_eq, runKey_append]
        · have := add_grants hl (by rw [ep]; exact hdis') g p
          rw [ep, en] at this
          have e : (stmts.filter fun s => decide (s.ddl.tableBody t.name = true)) = l.filter fun s => s.ddl.tableBody t.name := by
            rw [← hf _ fun _ h => h]; exact List.filter_congr fun s _ => by simp
          rw [e]; exact this _
        · rintro s ⟨h1, h2⟩; rw [h1] at h2; cases h2
      · intro x _ hx s
        simp only [decide_eq_false_iff_not, not_or] at hx
        refine keyStep_other ?_ ?_ s
        · cases hk : x.ddl.isKey t.name g p with
          | false => rfl
          | true => exact absurd (Ddl.isKey_tableBody hk) hx.2
        · cases hd : x.ddl <;> rw [hd] at hx <;> first | rfl | (simpa [Ddl.isTable, Ddl.tableBody] using hx)
    exact ⟨fun _ _ _ _ => key _, fun _ => key⟩
  · refine ⟨?_, fun hnot => absurd (List.mem_map.mpr ⟨o', ho', e3⟩) hnot⟩
    intro o ho hname hoko
    have hoo : normalizeTable o' = normalizeTable o :=
      List.inj_on_of_nodup_map (diffLists_old_nodup dr.htd0) (mem_normalize_tables_of ho') (mem_normalize_tables_of ho)
        (e3.trans (congrArg SQName.getName hname.symm))
    have hon : o'.name = t.name := (congrArg Table.name hoo).trans hname
    have hperm' : (normalizeTable o).privileges.Perm o.privileges := sortObjs_perm _
    obtain ⟨b1, b2, _, _, _, _, _, _, b9⟩ := buildTableDiff_ok hbd
    rw [hoo] at b1 b9
    have hod : DistinctPrivileges (normalizeTable o).privileges := by
      have hon := diffLists_old_nodup b9
      refine (List.nodup_map_iff_inj_on (List.Nodup.of_map _ hon)).mpr ?_
      intro x hx y hy e
      simp only [Prod.mk.injEq] at e
      exact List.inj_on_of_nodup_map hon hx hy (privilege_name_of_key e.1 e.2)
    have en : (orderIf opts td0).new = normalizeTable t := e1
    have eo : (orderIf opts td0).old = normalizeTable o := (orderIf_old _ _).trans b1
    rw [← grantsOf_perm hperm' hod, ← grantsOf_perm hperm hdis']
    funext g p
    have := alter_grants hl (by rw [eo, en, orderIf_privileges]; exact b9)
      (by rw [eo]; exact fun x hx => hoko x (hperm'.mem_iff.mp hx))
      (by rw [en]; exact fun x hx => hok x (hperm.mem_iff.mp hx)) (by rw [en]; exact hdis') g p
    rw [eo, en] at this
    refine Eq.trans ?_ this
    rw [runGrants_key, key_filter]
    · exact congrArg _ (hf _ fun s hs => Ddl.isKey_tableBody hs)
    · intro s hs
      obtain ⟨h1, h2⟩ := hno hon s hs
      cases hd : s.ddl <;> first | rfl | skip
      · rename_i a b c
        by_cases e : a = t.name
        · exact absurd (by rw [hd, e]) (h1 b c)
        · simp [Ddl.isTable, e]
      · rename_i a
        by_cases e : a = t.name
        · exact absurd (by rw [hd, e]) h2
        · simp [Ddl.isTable, e]

end

section
open Samples

/-- privileges are taken away, given, and changed in their grant options, on a table that stays -/
def oldGrants : Schema := { Schema.empty with
  tables := [{ table "a" [col "x" "integer"] with
    privileges := [⟨"", "SELECT", false⟩, ⟨"joe", "SELECT", true⟩, ⟨"ann", "UPDATE", false⟩] }] }

def newGrants : Schema := { Schema.empty with
  tables := [{ table "a" [col "x" "integer"] with
    privileges := [⟨"joe", "SELECT", false⟩, ⟨"joe", "INSERT", false⟩, ⟨"ann", "UPDATE", true⟩] }] }

/-- the hypotheses of `C25_privileges_become_those_of_the_target_partial` hold, and the plan does something -/
example : (∃ stmts r', generateMigrationStatements rand oldGrants newGrants opts = .ok (stmts, r') ∧ stmts.length = 6) ∧
    (newGrants.tables.map Obj.getName).Nodup ∧
    (∀ t ∈ oldGrants.tables ++ newGrants.tables, ∀ p ∈ t.privileges, PrivilegeOk p) ∧
    ∀ t ∈ newGrants.tables, DistinctPrivileges t.privileges := by
  refine ⟨exists_plan (by decide +kernel), by decide +kernel, ?_, ?_⟩
  · intro t ht p hp
    have : ∀ t ∈ oldGrants.tables ++ newGrants.tables, ∀ p ∈ t.privileges, ':' ∉ p.privilege.toList ∧ p.grantee ≠ "PUBLIC" := by
      decide +kernel
    exact ⟨(this t ht p hp).1, (this t ht p hp).2⟩
  · unfold DistinctPrivileges; decide +kernel

/-- a new table -/
example : ∃ stmts r', generateMigrationStatements rand Schema.empty newGrants opts = .ok (stmts, r') ∧ stmts.length = 4 :=
  exists_plan (by decide +kernel)

/-- C25 does not hold if there is a role called `PUBLIC`, which Postgres allows in quotes: the privileges of this role
have the same name as those of everybody, so replacing one by the other is not noticed. -/
theorem C25_role_named_public_violated : ∃ (old new : Schema) (o t : Table) (stmts : List Statement) (r' : Rand),
    generateMigrationStatements rand old new opts = .ok (stmts, r') ∧ (new.tables.map Obj.getName).Nodup ∧
    o ∈ old.tables ∧ t ∈ new.tables ∧ o.name = t.name ∧ DistinctPrivileges o.privileges ∧ DistinctPrivileges t.privileges ∧
    runGrants t.name (grantsOf o.privileges) stmts ≠ grantsOf t.privileges := by
  let o : Table := { table "a" [col "x" "integer"] with privileges := [⟨"", "SELECT", false⟩] }
  let t : Table := { table "a" [col "x" "integer"] with privileges := [⟨"PUBLIC", "SELECT", false⟩] }
  have : ∃ stmts r', generateMigrationStatements rand { Schema.empty with tables := [o] } { Schema.empty with tables := [t] }
      opts = .ok (stmts, r') ∧ stmts = [] := exists_plan (by decide +kernel)
  obtain ⟨stmts, r', h, rfl⟩ := this
  refine ⟨_, _, o, t, _, _, h, by decide +kernel, List.mem_cons_self, List.mem_cons_self, rfl, ?_, ?_, ?_⟩
  · unfold DistinctPrivileges; decide +kernel
  · unfold DistinctPrivileges; decide +kernel
  · intro e
    have := congrFun (congrFun e "") "SELECT"
    revert this
    decide +kernel

end

end Verif
