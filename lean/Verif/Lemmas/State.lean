import Verif.Lemmas.Gen

/-!
# The state of the generators: what is written into it and stays
-/

namespace Verif

/-- a computation keeps a property of the state -/
def Keeps {α : Type} (I : GenState → Prop) (x : GenM α) : Prop := ∀ s a s', x s = .ok (a, s') → I s → I s'

section
variable {α β : Type} {I : GenState → Prop}

theorem keeps_pure {a : α} : Keeps I (pure a : GenM α) := by
  intro s b s' h hi
  rw [genM_pure_ok] at h
  exact h.2 ▸ hi

theorem keeps_lift {x : Except Err α} : Keeps I (liftM x : GenM α) := by
  intro s b s' h hi
  rw [genM_lift_ok] at h
  exact h.2 ▸ hi

theorem keeps_throw {e : Err} : Keeps I (throw e : GenM α) := by
  intro s b s' h
  exact absurd h (by rw [genM_throw_ok]; exact id)

theorem keeps_bind {x : GenM α} {f : α → GenM β} (hx : Keeps I x) (hf : ∀ a, Keeps I (f a)) : Keeps I (x >>= f) := by
  intro s b s' h hi
  obtain ⟨a, s1, h1, h2⟩ := genM_bind_ok.mp h
  exact hf a _ _ _ h2 (hx _ _ _ h1 hi)

theorem keeps_modify {f : GenState → GenState} (hf : ∀ s, I s → I (f s)) : Keeps I (modify f : GenM PUnit) := by
  intro s b s' h hi
  rw [genM_modify_ok] at h
  exact h ▸ hf s hi

theorem keeps_mapMs {f : α → GenM β} {l : List α} (h : ∀ a ∈ l, Keeps I (f a)) : Keeps I (mapMs f l) := by
  induction l with
  | nil => exact keeps_pure
  | cons a l ih =>
    exact keeps_bind (h a List.mem_cons_self) fun b =>
      keeps_bind (ih fun a ha => h a (List.mem_cons_of_mem _ ha)) fun bs => keeps_pure

theorem keeps_randomUUID (hr : ∀ s p, I s → I { s with rand := { s.rand with pos := p } }) : Keeps I randomUUID := by
  intro s a s' h hi
  unfold randomUUID at h
  split at h
  · rw [Except.ok.injEq, Prod.mk.injEq] at h
    rw [← h.2]; exact hr _ _ hi
  · cases h

theorem keeps_generatePartialGraph {S D : Type} {g : VertexGen GenM S D} {ld : ListDiff S D}
    (ha : ∀ o ∈ ld.adds, Keeps I (g.add o)) (hd : ∀ o ∈ ld.deletes, Keeps I (g.delete o))
    (hc : ∀ o ∈ ld.alters, Keeps I (g.alter o)) : Keeps I (generatePartialGraph g ld) :=
  keeps_bind (keeps_mapMs ha) fun _ => keeps_bind (keeps_mapMs hd) fun _ => keeps_bind (keeps_mapMs hc) fun _ => keeps_pure

theorem keeps_toNew {S D : Type} [GoZero S] [IsDiff D S] {g : LegacyGen GenM S D} {ld : ListDiff S D}
    (ha : ∀ o ∈ ld.adds, Keeps I (g.add o)) (ha' : ∀ o ∈ ld.adds, Keeps I (g.addAlterDeps o GoZero.zero))
    (hd : ∀ o ∈ ld.deletes, Keeps I (g.delete o)) (hd' : ∀ o ∈ ld.deletes, Keeps I (g.deleteDeps o))
    (hc : ∀ o ∈ ld.alters, Keeps I (g.alter o))
    (hc' : ∀ o ∈ ld.alters, Keeps I (g.addAlterDeps (IsDiff.getNew o) (IsDiff.getOld o))) :
    Keeps I (generatePartialGraph g.toNew ld) :=
  keeps_generatePartialGraph
    (fun o ho => keeps_bind (ha o ho) fun _ => keeps_bind (ha' o ho) fun _ => keeps_pure)
    (fun o ho => keeps_bind (hd o ho) fun _ => keeps_bind (hd' o ho) fun _ => keeps_pure)
    (fun o ho => keeps_bind (hc o ho) fun _ => keeps_bind (hc' o ho) fun _ => keeps_pure)

/-- the moment an element is treated -/
theorem mapMs_at {f : α → GenM β} {l : List α} {s s' : GenState} {bs : List β} (h : mapMs f l s = .ok (bs, s')) {a : α}
    (ha : a ∈ l) : ∃ l1 l2 s1 s2 b bs1 bs2, l = l1 ++ a :: l2 ∧ mapMs f l1 s = .ok (bs1, s1) ∧ f a s1 = .ok (b, s2) ∧
      mapMs f l2 s2 = .ok (bs2, s') ∧ b ∈ bs := by
  induction l generalizing s bs with
  | nil => cases ha
  | cons x l ih =>
    obtain ⟨b, s1, h1, h⟩ := genM_bind_ok.mp h
    obtain ⟨bs', s2, h2, h⟩ := genM_bind_ok.mp h
    obtain ⟨rfl, rfl⟩ := genM_pure_ok.mp h
    rcases List.mem_cons.mp ha with rfl | ha
    · exact ⟨[], l, s, s1, b, [], bs', rfl, genM_pure_ok.mpr ⟨rfl, rfl⟩, h1, h2, List.mem_cons_self⟩
    · obtain ⟨l1, l2, t1, t2, c, cs1, cs2, rfl, e1, e2, e3, e4⟩ := ih h2 ha
      exact ⟨x :: l1, l2, t1, t2, c, b :: cs1, cs2, rfl,
        genM_bind_ok.mpr ⟨b, s1, h1, genM_bind_ok.mpr ⟨cs1, t1, e1, genM_pure_ok.mpr ⟨rfl, rfl⟩⟩⟩, e2, e3,
        List.mem_cons_of_mem _ e4⟩

/-- the moment a result is made -/
theorem mapMs_from {f : α → GenM β} {l : List α} {s s' : GenState} {bs : List β} (h : mapMs f l s = .ok (bs, s')) {b : β}
    (hb : b ∈ bs) : ∃ l1 l2 s1 s2 a bs1 bs2, l = l1 ++ a :: l2 ∧ mapMs f l1 s = .ok (bs1, s1) ∧ f a s1 = .ok (b, s2) ∧
      mapMs f l2 s2 = .ok (bs2, s') := by
  induction l generalizing s bs with
  | nil =>
    obtain ⟨rfl, rfl⟩ := genM_pure_ok.mp h
    cases hb
  | cons x l ih =>
    obtain ⟨b', s1, h1, h⟩ := genM_bind_ok.mp h
    obtain ⟨bs', s2, h2, h⟩ := genM_bind_ok.mp h
    obtain ⟨rfl, rfl⟩ := genM_pure_ok.mp h
    rcases List.mem_cons.mp hb with rfl | hb
    · exact ⟨[], l, s, s1, x, [], bs', rfl, genM_pure_ok.mpr ⟨rfl, rfl⟩, h1, h2⟩
    · obtain ⟨l1, l2, t1, t2, a, cs1, cs2, rfl, e1, e2, e3⟩ := ih h2 hb
      exact ⟨x :: l1, l2, t1, t2, a, b' :: cs1, cs2, rfl,
        genM_bind_ok.mpr ⟨b', s1, h1, genM_bind_ok.mpr ⟨cs1, t1, e1, genM_pure_ok.mpr ⟨rfl, rfl⟩⟩⟩, e2, e3⟩

end

section
variable {opts : PlanOptions} {d : SchemaDiff} {r r' : Rand} {stmts : List Statement}

/-- properties that do not look at the random source -/
def IgnoresRand (I : GenState → Prop) : Prop := ∀ s p, I s → I { s with rand := { s.rand with pos := p } }

theorem keeps_tables {I : GenState → Prop} (hI : IgnoresRand I) (g : TableGen) (ld : ListDiff Table TableDiff) :
    Keeps I (generatePartialGraph g.gen ld) := by
  refine keeps_toNew (fun o _ => keeps_lift) (fun o _ => keeps_lift) (fun o _ => keeps_lift) (fun o _ => keeps_lift)
    (fun o _ => ?_) (fun o _ => keeps_lift)
  show Keeps I (g.alter o)
  have htemp : Keeps I (TableGen.tempConstraints o) := by
    unfold TableGen.tempConstraints
    refine keeps_mapMs fun c _ => ?_
    unfold buildTempNotNullConstraint
    exact keeps_bind (keeps_randomUUID hI) fun _ => keeps_pure
  have hbody : Keeps I (g.alterBody o) := by
    unfold TableGen.alterBody TableGen.alterBaseTable
    dsimp only
    split
    · exact keeps_lift
    · split
      · exact keeps_bind keeps_throw fun _ => keeps_bind htemp fun _ => keeps_lift
      · exact keeps_bind htemp fun _ => keeps_lift
  unfold TableGen.alter
  dsimp only
  split
  · exact keeps_bind keeps_throw fun _ => keeps_bind hbody fun _ => keeps_lift
  · exact keeps_bind hbody fun _ => keeps_lift

/-- the partitions attached after their indexes are built -/
theorem keeps_attach {I : GenState → Prop} {idxs : List Index} {added : GoMap String Table} {t old : Table}
    (hI : ∀ s, I s → I { s with attachedAfterIdxBuilds := s.attachedAfterIdxBuilds.set t.name.getName true }) :
    Keeps I (AttachGen.addAlterDeps idxs added t old) := by
  unfold AttachGen.addAlterDeps
  split
  · exact keeps_pure
  · split
    · exact keeps_pure
    · dsimp only
      split
      · exact keeps_pure
      · exact keeps_bind (keeps_modify hI) fun _ => keeps_pure

theorem keeps_attaches {I : GenState → Prop} (hI : ∀ s n, I s → I { s with attachedAfterIdxBuilds := s.attachedAfterIdxBuilds.set n true })
    (idxs : List Index) (added : GoMap String Table) (ld : ListDiff Table TableDiff) :
    Keeps I (generatePartialGraph (AttachGen.gen idxs added) ld) := by
  refine keeps_toNew (g := AttachGen.legacy idxs added) (fun o _ => ?_) (fun o _ => keeps_attach fun s => hI s _) (fun o _ => keeps_pure) (fun o _ => keeps_pure)
    (fun o _ => keeps_pure) (fun o _ => keeps_attach fun s => hI s _)
  show Keeps I (AttachGen.add o)
  unfold AttachGen.add
  split <;> exact keeps_pure

theorem keeps_rename {I : GenState → Prop} (hr : IgnoresRand I) {old : GoMap String Index} {i : Index}
    (hI : ∀ s n, I s → I { s with renames := s.renames.set (Obj.getName i) n }) : Keeps I (RenameGen.add old i) := by
  unfold RenameGen.add
  split
  · exact keeps_pure
  · split
    · exact keeps_pure
    · exact keeps_bind (keeps_randomUUID hr) fun _ => keeps_bind (keeps_modify fun s => hI s _) fun _ => keeps_pure

theorem keeps_renames {I : GenState → Prop} (hr : IgnoresRand I) {old : GoMap String Index} {ld : ListDiff Index (OldNew Index)}
    (hI : ∀ i ∈ ld.adds, ∀ s n, I s → I { s with renames := s.renames.set (Obj.getName i) n }) :
    Keeps I (generatePartialGraph (RenameGen.gen old) ld) :=
  keeps_toNew (g := RenameGen.legacy old) (fun o ho => keeps_rename hr (hI o ho)) (fun o _ => keeps_pure)
    (fun o _ => keeps_pure) (fun o _ => keeps_pure) (fun o _ => keeps_pure) (fun o _ => keeps_pure)

/-- a new partition of an existing table is known to be attached late -/
theorem PlanRun.attached_late (run : PlanRun opts d r r' stmts) {t : Table} (ht : t ∈ d.tableDiffs.adds) {p : SQName}
    (hp : t.parentTable = some p) (ha : (byName d.tableDiffs.adds).has p.getName = false) :
    run.s3.attachedAfterIdxBuilds.get? t.name.getName = some true := by
  have hset : ∀ s : GenState, ∀ n, s.attachedAfterIdxBuilds.get? t.name.getName = some true →
      (s.attachedAfterIdxBuilds.set n true).get? t.name.getName = some true := by
    intro s n h
    by_cases e : n = t.name.getName
    · subst e; simp
    · rw [GoMap.get?_set, if_neg e]; exact h
  have h2 : run.s2.attachedAfterIdxBuilds.get? t.name.getName = some true := by
    obtain ⟨as, t1, h1, h⟩ := genM_bind_ok.mp run.hattaches
    obtain ⟨l1, l2, u1, u2, b, bs1, bs2, _, e1, e2, e3, _⟩ := mapMs_at h1 ht
    have hu2 : u2.attachedAfterIdxBuilds.get? t.name.getName = some true := by
      obtain ⟨l, v1, f1, f⟩ := genM_bind_ok.mp e2
      obtain ⟨l', v2, f2, f⟩ := genM_bind_ok.mp f
      obtain ⟨_, rfl⟩ := genM_pure_ok.mp f
      have f2 : AttachGen.addAlterDeps d.new.indexes (byName d.tableDiffs.adds) t GoZero.zero v1 = .ok (l', v2) := f2
      unfold AttachGen.addAlterDeps at f2
      rw [hp] at f2
      simp only [ne_eq, not_true_eq_false, if_false, ha, Bool.false_eq_true] at f2
      obtain ⟨_, v3, f3, f2⟩ := genM_bind_ok.mp f2
      rw [genM_modify_ok] at f3
      obtain ⟨_, rfl⟩ := genM_pure_ok.mp f2
      rw [f3]; simp
    have hk : ∀ o old, Keeps (fun s => s.attachedAfterIdxBuilds.get? t.name.getName = some true)
        (AttachGen.addAlterDeps d.new.indexes (byName d.tableDiffs.adds) o old) := fun o old => keeps_attach fun s => hset s _
    have hadd : ∀ o, Keeps (fun s => s.attachedAfterIdxBuilds.get? t.name.getName = some true) (AttachGen.add o) := by
      intro o; unfold AttachGen.add; split <;> exact keeps_pure
    have ht1 : t1.attachedAfterIdxBuilds.get? t.name.getName = some true :=
      keeps_mapMs (I := fun s => s.attachedAfterIdxBuilds.get? t.name.getName = some true)
        (fun o _ => keeps_bind (hadd o) fun _ => keeps_bind (hk o _) fun _ => keeps_pure) _ _ _ e3 hu2
    refine keeps_bind (I := fun s => s.attachedAfterIdxBuilds.get? t.name.getName = some true) (keeps_mapMs fun o _ => ?_)
      (fun _ => keeps_bind (keeps_mapMs fun o _ => ?_) fun _ => keeps_pure) _ _ _ h ht1
    · exact keeps_bind keeps_pure fun _ => keeps_bind keeps_pure fun _ => keeps_pure
    · exact keeps_bind keeps_pure fun _ => keeps_bind (hk _ _) fun _ => keeps_pure
  exact keeps_renames (I := fun s => s.attachedAfterIdxBuilds.get? t.name.getName = some true) (fun s p h => h)
    (fun i _ s n h => h) _ _ _ run.hrenames h2

/-- a new index with an old namesake: the old one gets a new name, which is remembered -/
theorem PlanRun.renamed (run : PlanRun opts d r r' stmts) (hn : (d.indexDiffs.adds.map Obj.getName).Nodup) {i o : Index}
    (hi : i ∈ d.indexDiffs.adds) (ho : (byName d.old.indexes).get? (Obj.getName i) = some o)
    (hpk : ¬ (o.isPk = true ∧ i.isPk = true)) :
    ∃ uuid, run.s3.renames.get? (Obj.getName i) = some (nonConflictingName i.name uuid) ∧
      ∃ v ∈ run.renames.vertices, v.id = renameIndexVertexId i.sqName .addAlter ∧
        v.statements = [stmt (.renameIndex i.sqName (nonConflictingName i.name uuid))] := by
  obtain ⟨as, t1, h1, h⟩ := genM_bind_ok.mp run.hrenames
  obtain ⟨l1, l2, u1, u2, b, bs1, bs2, e0, e1, e2, e3, e4⟩ := mapMs_at h1 hi
  obtain ⟨l, v1, f1, f⟩ := genM_bind_ok.mp e2
  obtain ⟨l', v2, f2, f⟩ := genM_bind_ok.mp f
  obtain ⟨hb, rfl⟩ := genM_pure_ok.mp f
  obtain ⟨_, rfl⟩ := genM_pure_ok.mp f2
  have f1 : RenameGen.add (byName d.old.indexes) i u1 = .ok (l, v1) := f1
  unfold RenameGen.add at f1
  rw [ho] at f1
  simp only at f1
  rw [if_neg (by simpa using hpk)] at f1
  obtain ⟨uuid, w1, g1, f1⟩ := genM_bind_ok.mp f1
  obtain ⟨_, w2, g2, f1⟩ := genM_bind_ok.mp f1
  rw [genM_modify_ok] at g2
  obtain ⟨rfl, rfl⟩ := genM_pure_ok.mp f1
  have hset : w2.renames.get? (Obj.getName i) = some (nonConflictingName i.name uuid) := by rw [g2]; simp
  refine ⟨uuid, ?_, ?_⟩
  · have hne : ∀ x ∈ l2, Obj.getName x ≠ Obj.getName i := by
      intro x hx e
      rw [e0, List.map_append, List.map_cons, List.nodup_append] at hn
      exact (List.nodup_cons.mp hn.2.1).1 (e ▸ List.mem_map_of_mem hx)
    have ht1 : t1.renames.get? (Obj.getName i) = some (nonConflictingName i.name uuid) :=
      keeps_mapMs (I := fun s => s.renames.get? (Obj.getName i) = some (nonConflictingName i.name uuid))
        (fun x hx => keeps_bind (keeps_rename (fun s p h => h) fun s n h => by
          rw [GoMap.get?_set, if_neg (hne x hx)]; exact h) fun _ => keeps_bind keeps_pure fun _ => keeps_pure)
        _ _ _ e3 hset
    refine keeps_bind (I := fun s => s.renames.get? (Obj.getName i) = some (nonConflictingName i.name uuid))
      (keeps_mapMs fun o _ => ?_) (fun _ => keeps_bind (keeps_mapMs fun o _ => ?_) fun _ => keeps_pure) _ _ _ h ht1
    · exact keeps_bind keeps_pure fun _ => keeps_bind keeps_pure fun _ => keeps_pure
    · exact keeps_bind keeps_pure fun _ => keeps_bind keeps_pure fun _ => keeps_pure
  · obtain ⟨ds, t2, k1, h⟩ := genM_bind_ok.mp h
    obtain ⟨cs, t3, k2, h⟩ := genM_bind_ok.mp h
    obtain ⟨hpg, _⟩ := genM_pure_ok.mp h
    refine ⟨⟨renameIndexVertexId i.sqName .addAlter, .sooner, [stmt (.renameIndex i.sqName (nonConflictingName i.name uuid))]⟩,
      ?_, rfl, rfl⟩
    rw [← hpg]
    refine PartialGraph.mem_vertices_concat.mpr ⟨b, by simp [e4], ?_⟩
    rw [← hb]
    exact List.mem_singleton_self _

/-- a vertex of the renames with a statement: the statement renames a new index' old namesake to the remembered name -/
theorem PlanRun.rename_vertex (run : PlanRun opts d r r' stmts) (hn : (d.indexDiffs.adds.map Obj.getName).Nodup)
    {v : SqlVertex Statement} (hv : v ∈ run.renames.vertices) {s : Statement} (hs : s ∈ v.statements) :
    ∃ i ∈ d.indexDiffs.adds, ∃ n, s = stmt (.renameIndex i.sqName n) ∧ run.s3.renames.get? (Obj.getName i) = some n ∧
      v.id = renameIndexVertexId i.sqName .addAlter ∧ ∃ o, (byName d.old.indexes).get? (Obj.getName i) = some o ∧
        ¬ (o.isPk = true ∧ i.isPk = true) := by
  obtain ⟨as, t1, h1, h⟩ := genM_bind_ok.mp run.hrenames
  obtain ⟨ds, t2, k1, h'⟩ := genM_bind_ok.mp h
  obtain ⟨cs, t3, k2, h'⟩ := genM_bind_ok.mp h'
  obtain ⟨hpg, _⟩ := genM_pure_ok.mp h'
  rw [← hpg] at hv
  obtain ⟨b, hb, hv⟩ := PartialGraph.mem_vertices_concat.mp hv
  rw [List.mem_append, List.mem_append] at hb
  rcases hb with (hb | hb) | hb
  · obtain ⟨l1, l2, u1, u2, i, bs1, bs2, e0, e1, e2, e3⟩ := mapMs_from h1 hb
    obtain ⟨l, v1, f1, f⟩ := genM_bind_ok.mp e2
    obtain ⟨l', v2, f2, f⟩ := genM_bind_ok.mp f
    obtain ⟨hb', rfl⟩ := genM_pure_ok.mp f
    obtain ⟨_, rfl⟩ := genM_pure_ok.mp f2
    rw [← hb'] at hv
    rw [List.mem_singleton.mp hv] at hs ⊢
    have hs : s ∈ l := hs
    have f1 : RenameGen.add (byName d.old.indexes) i u1 = .ok (l, v1) := f1
    unfold RenameGen.add at f1
    cases ho : (byName d.old.indexes).get? (Obj.getName i) with
    | none =>
      rw [ho] at f1
      obtain ⟨rfl, _⟩ := genM_pure_ok.mp f1
      cases hs
    | some o =>
    rw [ho] at f1
    dsimp only at f1
    by_cases hpk : (o.isPk && i.isPk) = true
    · rw [if_pos hpk] at f1
      obtain ⟨rfl, _⟩ := genM_pure_ok.mp f1
      cases hs
    rw [if_neg hpk] at f1
    obtain ⟨uuid, w1, g1, f1⟩ := genM_bind_ok.mp f1
    obtain ⟨_, w2, g2, f1⟩ := genM_bind_ok.mp f1
    rw [genM_modify_ok] at g2
    obtain ⟨rfl, rfl⟩ := genM_pure_ok.mp f1
    have hset : w2.renames.get? (Obj.getName i) = some (nonConflictingName i.name uuid) := by rw [g2]; simp
    have hi : i ∈ d.indexDiffs.adds := by rw [e0]; simp
    refine ⟨i, hi, _, List.mem_singleton.mp hs, ?_, rfl, o, ho, by simpa using hpk⟩
    have hne : ∀ x ∈ l2, Obj.getName x ≠ Obj.getName i := by
      intro x hx e
      rw [e0, List.map_append, List.map_cons, List.nodup_append] at hn
      exact (List.nodup_cons.mp hn.2.1).1 (e ▸ List.mem_map_of_mem hx)
    have ht1 : t1.renames.get? (Obj.getName i) = some (nonConflictingName i.name uuid) :=
      keeps_mapMs (I := fun s => s.renames.get? (Obj.getName i) = some (nonConflictingName i.name uuid))
        (fun x hx => keeps_bind (keeps_rename (fun s p h => h) fun s n h => by
          rw [GoMap.get?_set, if_neg (hne x hx)]; exact h) fun _ => keeps_bind keeps_pure fun _ => keeps_pure)
        _ _ _ e3 hset
    refine keeps_bind (I := fun s => s.renames.get? (Obj.getName i) = some (nonConflictingName i.name uuid))
      (keeps_mapMs fun o _ => ?_) (fun _ => keeps_bind (keeps_mapMs fun o _ => ?_) fun _ => keeps_pure) _ _ _ h ht1
    · exact keeps_bind keeps_pure fun _ => keeps_bind keeps_pure fun _ => keeps_pure
    · exact keeps_bind keeps_pure fun _ => keeps_bind keeps_pure fun _ => keeps_pure
  · obtain ⟨l1, l2, u1, u2, i, bs1, bs2, e0, e1, e2, e3⟩ := mapMs_from k1 hb
    obtain ⟨l, v1, f1, f⟩ := genM_bind_ok.mp e2
    obtain ⟨l', v2, f2, f⟩ := genM_bind_ok.mp f
    obtain ⟨hb', rfl⟩ := genM_pure_ok.mp f
    obtain ⟨rfl, rfl⟩ := genM_pure_ok.mp f1
    rw [← hb'] at hv
    rw [List.mem_singleton.mp hv] at hs
    cases hs
  · obtain ⟨l1, l2, u1, u2, i, bs1, bs2, e0, e1, e2, e3⟩ := mapMs_from k2 hb
    obtain ⟨l, v1, f1, f⟩ := genM_bind_ok.mp e2
    obtain ⟨l', v2, f2, f⟩ := genM_bind_ok.mp f
    obtain ⟨hb', rfl⟩ := genM_pure_ok.mp f
    obtain ⟨rfl, rfl⟩ := genM_pure_ok.mp f1
    rw [← hb'] at hv
    rw [List.mem_singleton.mp hv] at hs
    cases hs

/-- only new indexes with an old namesake are in the map of renames -/
theorem PlanRun.renames_only (run : PlanRun opts d r r' stmts) {n x : String} (h : run.s3.renames.get? n = some x) :
    ∃ i ∈ d.indexDiffs.adds, Obj.getName i = n := by
  by_contra hc
  push Not at hc
  have key : run.s3.renames.get? n = none := by
    refine keeps_renames (I := fun s => s.renames.get? n = none) (fun s p h => h) ?_ _ _ _ run.hrenames ?_
    · intro i hi s m hs
      rw [GoMap.get?_set, if_neg (hc i hi)]; exact hs
    · refine keeps_attaches (I := fun s => s.renames.get? n = none) (fun s m h => h) _ _ _ _ _ _ run.hattaches ?_
      exact keeps_tables (I := fun s => s.renames.get? n = none) (fun s p h => h) _ _ _ _ _ run.htables rfl
  rw [key] at h; cases h

end
end Verif
