import Verif.Props.MergeSteps
/-!
# C96, C97: merging by time ranges; selecting APIDs after merging
-/
namespace Ccsds
open Spec Merger Cmd
variable {Path : Type} [DecidableEq Path]

/-! ## C96  Merging by time ranges -/

omit [DecidableEq Path] in
/-- Of two merges of the same files, up to and from a time between the bounds of a third, the results one after the other are a correct result of the third. -/
theorem isMerge_ranges {b : Build} {τ : Epoch → Int} {m m1 m2 : Merger Path} {files : Path → Option MFile}
    (hp1 : m1.paths = m.paths) (hp2 : m2.paths = m.paths) (hd1 : m1.timeDecoder = m.timeDecoder) (hd2 : m2.timeDecoder = m.timeDecoder)
    (ha1 : m1.apids = m.apids) (ha2 : m2.apids = m.apids) (ho1 : m1.order = m.order) (ho2 : m2.order = m.order)
    (hlo : m1.fromEpoch = m.fromEpoch) (hhi : m2.toEpoch = m.toEpoch) (hmid : m1.toEpoch = m2.fromEpoch)
    (h1 : τ m.fromEpoch ≤ τ m1.toEpoch) (h2 : τ m1.toEpoch ≤ τ m.toEpoch)
    {o1 o2 : List (List U8)} {es1 es2 : List (Entry Path)} (hm1 : IsMerge b τ m1 files o1 es1) (hm2 : IsMerge b τ m2 files o2 es2) :
    IsMerge b τ m files (o1 ++ o2) (es1 ++ es2) := by
  have t1 : ∀ e ∈ es1, τ e.time < τ m1.toEpoch := by
    intro e he
    obtain ⟨_, _, _, _, _, _, _, _, _, _, _, _, g5, _⟩ := hm1.inputs e he
    exact g5
  have t2 : ∀ e ∈ es2, τ m1.toEpoch ≤ τ e.time := by
    intro e he
    obtain ⟨_, _, _, _, _, _, _, _, _, _, _, g4, _, _⟩ := hm2.inputs e he
    rw [hmid]
    exact g4
  have r1 : ∀ a, rank m1 a = rank m a := fun a => by simp [rank, ho1]
  have r2 : ∀ a, rank m2 a = rank m a := fun a => by simp [rank, ho2]
  refine ⟨?_, ?_, ?_, ?_, ?_⟩
  · rw [List.map_append, hm1.bytes, hm2.bytes]
  · intro e he
    rcases List.mem_append.1 he with he | he
    · obtain ⟨a0, f, gs, a1, a2, a3, first, rest, g1, g2, g3, g4, g5, g6⟩ := hm1.inputs e he
      exact ⟨hp1 ▸ a0, f, gs, a1, a2, a3, first, rest, g1, g2, hd1 ▸ g3, hlo ▸ g4, by omega, ha1 ▸ g6⟩
    · obtain ⟨a0, f, gs, a1, a2, a3, first, rest, g1, g2, g3, g4, g5, g6⟩ := hm2.inputs e he
      exact ⟨hp2 ▸ a0, f, gs, a1, a2, a3, first, rest, g1, g2, hd2 ▸ g3, by rw [← hmid] at g4; omega, hhi ▸ g5, ha2 ▸ g6⟩
  · rw [List.pairwise_append]
    refine ⟨hm1.sorted.imp fun h => by simpa only [r1] using h, hm2.sorted.imp fun h => by simpa only [r2] using h, ?_⟩
    intro x hx y hy
    have := t1 x hx
    have := t2 y hy
    exact .inl (by omega)
  · rw [List.map_append, List.nodup_append]
    refine ⟨hm1.distinct, hm2.distinct, ?_⟩
    intro j hj k hk hjk
    obtain ⟨x, hx, rfl⟩ := List.mem_map.1 hj
    obtain ⟨y, hy, rfl⟩ := List.mem_map.1 hk
    have := t1 x hx
    have := t2 y hy
    have : τ x.time = τ y.time := congrArg Prod.snd hjk
    omega
  · intro e ⟨a0, f, gs, a1, a2, a3, first, rest, g1, g2, g3, g4, g5, g6⟩
    rw [List.map_append, List.mem_append]
    by_cases hc : τ e.time < τ m1.toEpoch
    · exact .inl (hm1.complete e ⟨hp1 ▸ a0, f, gs, a1, a2, a3, first, rest, g1, g2, hd1 ▸ g3, hlo ▸ g4, hc, ha1 ▸ g6⟩)
    · exact .inr (hm2.complete e ⟨hp2 ▸ a0, f, gs, a1, a2, a3, first, rest, g1, g2, hd2 ▸ g3, by rw [← hmid]; omega, hhi ▸ g5, ha2 ▸ g6⟩)

/-- C96: merging up to a time and merging from that time on, with the same other options, splits the merge of the whole: the two outputs one after the other are
its output. Nothing at the boundary is lost or doubled. (`mid`, in microseconds, lies within the range of the whole; the result is to be determined, see C25.) -/
theorem C96_split (b : Build) (τ : Epoch → Int) (m : Merger Path) (mid : Nat) (files : Path → Option MFile) (hfiles : Readable files)
    (hlo : τ m.fromEpoch ≤ τ ⟨.utc, mid * 1000⟩) (hhi : τ ⟨.utc, mid * 1000⟩ ≤ τ m.toEpoch)
    (hcopy : ∀ x y, Inputs b τ m files x → Inputs b τ m files y → x.key τ = y.key τ → x.bytes = y.bytes)
    (hsep : ∀ x y, Inputs b τ m files x → Inputs b τ m files y → τ x.time = τ y.time → rank m x.apid = rank m y.apid → x.key τ = y.key τ)
    (out o1 o2 : List (List U8)) (h : Merges b τ m files (.ok out)) (h1 : Merges b τ (m.withTo mid) files (.ok o1))
    (h2 : Merges b τ (m.withFrom mid) files (.ok o2)) : o1 ++ o2 = out := by
  obtain ⟨es, hm⟩ := C21_merge b τ m files hfiles out h
  obtain ⟨es1, hm1⟩ := C21_merge b τ _ files hfiles o1 h1
  obtain ⟨es2, hm2⟩ := C21_merge b τ _ files hfiles o2 h2
  have := isMerge_ranges (m := m) (m1 := m.withTo mid) (m2 := m.withFrom mid) rfl rfl rfl rfl rfl rfl rfl rfl rfl rfl rfl hlo hhi hm1 hm2
  exact (isMerge_same (fun _ => rfl) (fun e he => ⟨e, he, rfl⟩) (fun e he => ⟨e, he, rfl, rfl⟩) hcopy hsep _ _ _ _ hm this).symm

/-- C96 in general, when times and order values of different groups coincide or groups have different copies: the two outputs one after the other hold exactly one
group for every identity (APID, sequence id, time) that the merge of the whole writes, and are sorted as it is. -/
theorem C96_split_keys (b : Build) (τ : Epoch → Int) (m : Merger Path) (mid : Nat) (files : Path → Option MFile) (hfiles : Readable files)
    (hlo : τ m.fromEpoch ≤ τ ⟨.utc, mid * 1000⟩) (hhi : τ ⟨.utc, mid * 1000⟩ ≤ τ m.toEpoch)
    (out o1 o2 : List (List U8)) (h : Merges b τ m files (.ok out)) (h1 : Merges b τ (m.withTo mid) files (.ok o1))
    (h2 : Merges b τ (m.withFrom mid) files (.ok o2)) :
    ∃ es es', IsMerge b τ m files out es ∧ IsMerge b τ m files (o1 ++ o2) es' ∧ (es.map (Entry.key τ)).Perm (es'.map (Entry.key τ)) := by
  obtain ⟨es, hm⟩ := C21_merge b τ m files hfiles out h
  obtain ⟨es1, hm1⟩ := C21_merge b τ _ files hfiles o1 h1
  obtain ⟨es2, hm2⟩ := C21_merge b τ _ files hfiles o2 h2
  have hm' := isMerge_ranges (m := m) (m1 := m.withTo mid) (m2 := m.withFrom mid) rfl rfl rfl rfl rfl rfl rfl rfl rfl rfl rfl hlo hhi hm1 hm2
  exact ⟨es, es1 ++ es2, hm, hm', C21_keys_invariant b τ m m files (fun _ => Iff.rfl) ⟨rfl, rfl, rfl, rfl⟩ _ _ _ _ hm hm'⟩

/-- C96 for the command: three runs of `ccsds merge` on the same inputs, one with `--from F --to T`, one with `--from F --to M`, one with `--from M --to T` (`F`, `T` may be left
out): the second file followed by the third is the first. -/
theorem C96_command (b : Build) (τ : Epoch → Int) (micros : Epoch → Nat) (sched : Path → List U8 → Reader) (hs : Faithful sched) (a : MergeArgs Path) (mid : Epoch)
    (o1 o2 : Path) (fs f0 f1 f2 : FS Path) (hn : a.output ∉ a.inputs ∧ o1 ∉ a.inputs ∧ o2 ∉ a.inputs) (h : MergeRun b τ micros sched a fs .ok f0)
    (h1 : MergeRun b τ micros sched { a with to? := some mid, output := o1 } fs .ok f1) (h2 : MergeRun b τ micros sched { a with from? := some mid, output := o2 } fs .ok f2)
    (hτ : ∀ x y, x < y → τ ⟨.utc, x⟩ < τ ⟨.utc, y⟩) (hlo : ∀ f, a.from? = some f → micros f ≤ micros mid)
    (hhi : (a.to? = none → micros mid ≤ ((List.range' 1900 300).map yearDays).sum * 86400000000) ∧ ∀ t, a.to? = some t → micros mid ≤ micros t)
    (hcopy : ∀ ord, orderOf a = some ord → ∀ x y, Inputs b τ (mergerOf micros a ord) (fs.files sched) x → Inputs b τ (mergerOf micros a ord) (fs.files sched) y →
      x.key τ = y.key τ → x.bytes = y.bytes)
    (hsep : ∀ ord, orderOf a = some ord → ∀ x y, Inputs b τ (mergerOf micros a ord) (fs.files sched) x → Inputs b τ (mergerOf micros a ord) (fs.files sched) y →
      τ x.time = τ y.time → rank (mergerOf micros a ord) x.apid = rank (mergerOf micros a ord) y.apid → x.key τ = y.key τ) :
    ∃ w1 w2, f1 o1 = some w1 ∧ f2 o2 = some w2 ∧ f0 a.output = some (w1 ++ w2) := by
  obtain ⟨ord, w, e0, m0, rfl⟩ := C64_merge_partial b τ micros sched a fs f0 hn.1 h
  obtain ⟨ord1, w1, e1, m1, rfl⟩ := C64_merge_partial b τ micros sched _ fs f1 hn.2.1 h1
  obtain ⟨ord2, w2, e2, m2, rfl⟩ := C64_merge_partial b τ micros sched _ fs f2 hn.2.2 h2
  have q1 : orderOf { a with to? := some mid, output := o1 } = orderOf a := rfl
  have q2 : orderOf { a with from? := some mid, output := o2 } = orderOf a := rfl
  rw [q1, e0] at e1
  rw [q2, e0] at e2
  cases e1
  cases e2
  have k1 : mergerOf micros { a with to? := some mid, output := o1 } ord = (mergerOf micros a ord).withTo (micros mid) := by
    simp only [mergerOf]
    cases a.from? <;> cases a.to? <;> rfl
  have k2 : mergerOf micros { a with from? := some mid, output := o2 } ord = (mergerOf micros a ord).withFrom (micros mid) := by
    simp only [mergerOf]
    cases a.from? <;> cases a.to? <;> rfl
  rw [k1] at m1
  rw [k2] at m2
  have hle : ∀ x y, x ≤ y → τ ⟨.utc, x⟩ ≤ τ ⟨.utc, y⟩ := by
    intro x y hxy
    rcases Nat.lt_or_eq_of_le hxy with h | rfl
    · exact Int.le_of_lt (hτ x y h)
    · exact Int.le_refl _
  have hlo' : τ (mergerOf micros a ord).fromEpoch ≤ τ ⟨.utc, micros mid * 1000⟩ := by
    cases hf : a.from? with
    | none => 
      have : (mergerOf micros a ord).fromEpoch = ⟨.utc, 0⟩ := by
        simp only [mergerOf, hf]; cases a.to? <;> rfl
      rw [this]
      exact hle _ _ (Nat.zero_le _)
    | some f =>
      have : (mergerOf micros a ord).fromEpoch = ⟨.utc, micros f * 1000⟩ := by
        simp only [mergerOf, hf]; cases a.to? <;> rfl
      rw [this]
      exact hle _ _ (Nat.mul_le_mul_right _ (hlo f hf))
  have hhi' : τ ⟨.utc, micros mid * 1000⟩ ≤ τ (mergerOf micros a ord).toEpoch := by
    cases hf : a.to? with
    | none =>
      have : (mergerOf micros a ord).toEpoch = ⟨.utc, days2200 * 86400 * 1000000000⟩ := by
        simp only [mergerOf, hf]; cases a.from? <;> rfl
      rw [this]
      have := hhi.1 hf
      rw [← days2200_eq] at this
      exact hle _ _ (by omega)
    | some t =>
      have : (mergerOf micros a ord).toEpoch = ⟨.utc, micros t * 1000⟩ := by
        simp only [mergerOf, hf]; cases a.from? <;> rfl
      rw [this]
      exact hle _ _ (Nat.mul_le_mul_right _ (hhi.2 t hf))
  have := C96_split b τ (mergerOf micros a ord) (micros mid) (fs.files sched) (files_readable fs sched hs) hlo' hhi' (hcopy ord e0) (hsep ord e0) w w1 w2 m0 m1 m2
  refine ⟨w1.flatten, w2.flatten, by simp [FS.put], by simp [FS.put], ?_⟩
  simp [FS.put, ← this]

/-! The file of `FMEx` with `--apids 1`, split exactly at the time of the late group: it is in the second part, and only there. -/
namespace MPEx

/-- The time of the late group, in microseconds. -/
def mid : Nat := (daysTo1958 + 512) * 86400 * 1000000
def whole : Merger Nat := MergeEx.merger.withApids [1#16]

theorem upTo (b : Build) : Merges b MergeEx.tau (whole.withTo mid) (MergeEx.files FMEx.whole) (.ok [FMEx.early]) :=
  MergeEx.merges_of (idx := [FMEx.pEarly]) rfl FMEx.groups (ps := [FMEx.pEarly]) (by cases b with | mk o => cases o <;> rfl) (by simp) (List.Perm.refl _) (by decide)

theorem onwards (b : Build) : Merges b MergeEx.tau (whole.withFrom mid) (MergeEx.files FMEx.whole) (.ok [FMEx.late]) :=
  MergeEx.merges_of (idx := [FMEx.pLate]) rfl FMEx.groups (ps := [FMEx.pLate]) (by cases b with | mk o => cases o <;> rfl) (by simp) (List.Perm.refl _) (by decide)

theorem separated (b : Build) (x y : Entry Nat) (hx : Inputs b MergeEx.tau whole (MergeEx.files FMEx.whole) x)
    (hy : Inputs b MergeEx.tau whole (MergeEx.files FMEx.whole) y) (ht : MergeEx.tau x.time = MergeEx.tau y.time) : x = y := by
  rcases FMEx.inputs hx with rfl | rfl <;> rcases FMEx.inputs hy with rfl | rfl
  · rfl
  · exact absurd ht (by decide)
  · exact absurd ht (by decide)
  · rfl

example (b : Build) (out : List (List U8)) (h : Merges b MergeEx.tau whole (MergeEx.files FMEx.whole) (.ok out)) : [FMEx.early] ++ [FMEx.late] = out :=
  C96_split b MergeEx.tau whole mid _ (MergeEx.readable _ (by decide)) (by decide) (by decide)
    (fun x y hx hy hk => by rw [separated b x y hx hy (congrArg Prod.snd hk)]) (fun x y hx hy ht _ => by rw [separated b x y hx hy ht]) _ _ _ h (upTo b) (onwards b)

end MPEx

/-! ## C97  Selecting APIDs while merging or afterwards -/

omit [DecidableEq Path] in
/-- Reading back what a merge wrote gives the packets of the groups it wrote. -/
theorem isMerge_decodes {b : Build} {τ : Epoch → Int} {m : Merger Path} {files : Path → Option MFile} (hfiles : Readable files) {out : List (List U8)}
    {es : List (Entry Path)} (hm : IsMerge b τ m files out es) {r : Reader} (hr : r.Delivers out.flatten) :
    ∃ qs, Decodes r qs ∧ proj qs = proj (es.flatMap fun e => e.group.packets) := by
  have hwire : wire (es.flatMap fun e => e.group.packets) = out.flatten := by
    rw [hm.bytes]
    have : Entry.bytes = fun e : Entry Path => e.group.packets.flatMap Packet.data := rfl
    rw [wire, this, List.flatMap_assoc, List.flatMap_def]
  obtain ⟨qs, s, c1, c2, _⟩ := C05_roundtrip (es.flatMap fun e => e.group.packets) [] r
    (by
      intro p hp
      obtain ⟨e, he, hp⟩ := List.mem_flatMap.1 hp
      obtain ⟨_, f, gs, a1, a2, a3, _⟩ := hm.inputs e he
      exact (group_facts (hfiles _ f a1) a2 a3).1 p hp)
    (by simp [packetLen]) (by simp) (by rw [List.append_nil, hwire]; exact hr)
  exact ⟨qs, ⟨s, c1⟩, c2⟩

omit [DecidableEq Path] in
/-- Filtering the packets of groups of one APID each keeps or drops whole groups. -/
theorem filter_groups (keep : U16 → Bool) (es : List (Entry Path)) : ∀ qs : List Packet, proj qs = proj (es.flatMap fun e => e.group.packets) →
    (∀ e ∈ es, ∃ p rest, e.group.packets = p :: rest ∧ ∀ q ∈ rest, q.header.apid = p.header.apid) →
    ((qs.filter fun p => keep p.header.apid).map Packet.data).flatten = ((es.filter fun e => keep e.apid).map Entry.bytes).flatten := by
  induction es with
  | nil => intro qs h _; simp at h; subst h; rfl
  | cons e es ih =>
    intro qs h hg
    rw [List.flatMap_cons, proj, proj, List.map_append, List.map_eq_append_iff] at h
    obtain ⟨q1, q2, rfl, e1, e2⟩ := h
    obtain ⟨p, rest, hp, ha⟩ := hg e (by simp)
    have hap : e.apid = p.header.apid := by rw [Entry.apid, hp]
    have hall : ∀ q ∈ q1, q.header.apid = e.apid := by
      intro q hq
      have := List.mem_map_of_mem (f := fun p : Packet => (p.header, p.data)) hq
      rw [e1] at this
      obtain ⟨x, hx, hxe⟩ := List.mem_map.1 this
      simp only [Prod.mk.injEq] at hxe
      rw [← hxe.1, hap]
      rw [hp] at hx
      rcases List.mem_cons.1 hx with rfl | hx
      · rfl
      · exact ha x hx
    have hb : (q1.map Packet.data).flatten = e.bytes := by
      have := congrArg (fun l => (List.map Prod.snd l).flatten) e1
      simpa [List.map_map, Function.comp_def, Entry.bytes, List.flatMap_def] using this
    rw [List.filter_append, List.map_append, List.flatten_append, ih q2 e2 (fun x hx => hg x (by simp [hx])), List.filter_cons]
    by_cases hk : keep e.apid = true
    · rw [if_pos hk, List.map_cons, List.flatten_cons]
      congr 1
      rw [List.filter_eq_self.2 (fun q hq => by rw [hall q hq]; exact hk), hb]
    · rw [if_neg hk, List.filter_eq_nil_iff.2 (fun q hq => by rw [hall q hq]; exact hk)]
      rfl

/-- C97: filtering the output of a merge by APID writes the file that the merge writes when it is given `--apids` for the same APIDs, when the latter is determined (see
C25). Unlike filtering before merging (C93) this is so for all files. -/
theorem C97_filter_after (b : Build) (τ : Epoch → Int) (hτ : τ Filter.minEpoch < τ Filter.maxEpoch) (m : Merger Path) (files : Path → Option MFile) (hfiles : Readable files)
    (incl excl sel : List U16) (hm0 : m.apids? = none) (hne : incl ≠ [] ∨ excl ≠ []) (hsel : sel ≠ []) (hpass : ∀ a, ApidPasses incl excl a ↔ a ∈ sel)
    (hcopy : ∀ x y, Inputs b τ (m.withApids sel) files x → Inputs b τ (m.withApids sel) files y → x.key τ = y.key τ → x.bytes = y.bytes)
    (hsep : ∀ x y, Inputs b τ (m.withApids sel) files x → Inputs b τ (m.withApids sel) files y → τ x.time = τ y.time → rank m x.apid = rank m y.apid → x.key τ = y.key τ)
    (out out' : List (List U8)) (h : Merges b τ m files (.ok out)) (h' : Merges b τ (m.withApids sel) files (.ok out'))
    (r : Reader) (hr : r.Delivers out.flatten) :
    (∃ w, Filter.Runs b τ r incl excl none none (.ok w)) ∧ ∀ res, Filter.Runs b τ r incl excl none none res → ∃ w, res = .ok w ∧ w.flatten = out'.flatten := by
  obtain ⟨es, hm⟩ := C21_merge b τ m files hfiles out h
  obtain ⟨es', hm'⟩ := C21_merge b τ _ files hfiles out' h'
  obtain ⟨qs, hq, hproj⟩ := isMerge_decodes hfiles hm hr
  have hin : ∀ e, Inputs b τ (m.withApids sel) files e ↔ Inputs b τ m files e ∧ decide (e.apid ∈ sel) = true := by
    intro e
    rw [decide_eq_true_eq]
    have ha : m.apids = [] := by simp [Merger.apids, hm0]
    constructor
    · intro ⟨a0, f, gs, a1, a2, a3, first, rest, g1, g2, g3, g4, g5, g6⟩
      refine ⟨⟨a0, f, gs, a1, a2, a3, first, rest, g1, g2, g3, g4, g5, .inl ha⟩, ?_⟩
      rw [Entry.apid, g1]
      exact g6.resolve_left hsel
    · intro ⟨⟨a0, f, gs, a1, a2, a3, first, rest, g1, g2, g3, g4, g5, _⟩, hmem⟩
      rw [Entry.apid, g1] at hmem
      exact ⟨a0, f, gs, a1, a2, a3, first, rest, g1, g2, g3, g4, g5, .inr hmem⟩
  have hkey : ∀ x y, Inputs b τ m files x → Inputs b τ m files y → x.key τ = y.key τ → x.apid = y.apid := by
    intro x y ⟨_, _, _, _, _, _, p, r, g, _⟩ ⟨_, _, _, _, _, _, p', r', g', _⟩ hk
    simp only [Entry.key, g, g', List.head?_cons, Option.map_some, Prod.mk.injEq, Option.some.injEq] at hk
    simp [Entry.apid, g, g', hk.1.1]
  have hm2 : IsMerge b τ (m.withApids sel) files ((es.filter fun e => decide (e.apid ∈ sel)).map Entry.bytes) (es.filter fun e => decide (e.apid ∈ sel)) := by
    refine ⟨rfl, ?_, ?_, ?_, ?_⟩
    · intro e he
      rw [List.mem_filter] at he
      exact (hin e).2 ⟨hm.inputs e he.1, he.2⟩
    · exact hm.sorted.filter _
    · exact hm.distinct.sublist (List.filter_sublist.map _)
    · intro e he
      have he' := (hin e).1 he
      obtain ⟨x, hx, hxe⟩ := List.mem_map.1 (hm.complete e he'.1)
      refine List.mem_map.2 ⟨x, List.mem_filter.2 ⟨hx, ?_⟩, hxe⟩
      rw [hkey x e (hm.inputs x hx) he'.1 hxe]
      exact he'.2
  have heq := isMerge_same (fun _ => rfl) (fun e he => ⟨e, he, rfl⟩) (fun e he => ⟨e, he, rfl, rfl⟩) hcopy hsep _ _ _ _ hm' hm2
  have hfl := filter_groups (fun a => decide (a ∈ sel)) es qs hproj (by
    intro e he
    obtain ⟨_, f, gs, a1, a2, a3, _⟩ := hm.inputs e he
    obtain ⟨_, p, rest, k1, _, k2⟩ := group_facts (hfiles _ f a1) a2 a3
    exact ⟨p, rest, k1, k2⟩)
  have hk : (fun p : Packet => decide (ApidPasses incl excl p.header.apid)) = fun p => decide (p.header.apid ∈ sel) := by
    funext p
    exact decide_eq_decide.2 (hpass _)
  constructor
  · exact ⟨_, (C53_untimed b τ hτ r qs hq incl excl hne _).2 rfl⟩
  · intro res hres
    rw [C53_untimed b τ hτ r qs hq incl excl hne] at hres
    refine ⟨_, hres, ?_⟩
    rw [hk, hfl, heq]

namespace MPEx

def pOther : Ptr Nat := ⟨0, 28, 14, FMEx.time 2, 2#16, 0#16, 2⟩

theorem all (b : Build) : Merges b MergeEx.tau MergeEx.merger (MergeEx.files FMEx.whole) (.ok [FMEx.early, FMEx.late, FMEx.other]) :=
  MergeEx.merges_of (idx := [FMEx.pEarly, FMEx.pLate, pOther]) rfl FMEx.groups (ps := [FMEx.pLate, pOther, FMEx.pEarly]) (by cases b with | mk o => cases o <;> rfl) (by simp)
    ((List.Perm.swap _ _ _).trans (.cons _ (.swap _ _ _))) (by decide)

/-- `ccsds merge` and then `ccsds filter --include 1` on the file on which filtering first goes wrong (`C93_violated`). -/
example (b : Build) (r : Reader) (hr : r.Delivers (FMEx.early ++ FMEx.late ++ FMEx.other)) (res : Filter.FResult)
    (h : Filter.Runs b MergeEx.tau r [1#16] [] none none res) : ∃ w, res = .ok w ∧ w.flatten = FMEx.early ++ FMEx.late :=
  (C97_filter_after b MergeEx.tau (by decide) MergeEx.merger _ (MergeEx.readable _ (by decide)) [1#16] [] [1#16] rfl (by simp) (by simp)
    (by intro a; simp [ApidPasses]) (fun x y hx hy hk => by rw [separated b x y hx hy (congrArg Prod.snd hk)])
    (fun x y hx hy ht _ => by rw [separated b x y hx hy ht]) _ _ (all b) (FMEx.merges b) r (by simpa using hr)).2 res h

end MPEx

end Ccsds
