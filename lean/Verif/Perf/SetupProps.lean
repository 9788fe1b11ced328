import Verif.Perf.Setup
/-!
C143: which configuration the performance component is entered with.
-/
namespace Verif.Perf.Setup

open Component (Config)

/-! ### Specification -/

/-- The GUID fd87f2d8-112d-4640-9c00-d37d2a1fb75d as it lies in memory. -/
def hobGuid : Bytes := [0xd8, 0xf2, 0x87, 0xfd, 0x2d, 0x11, 0x40, 0x46, 0x9c, 0x00, 0xd3, 0x7d, 0x2a, 0x1f, 0xb7, 0x5d]

/-- A configuration HOB as a platform should write it: a byte 0 or 1, the mask, and perhaps more. -/
def Written (flag : Bool) (mask : Nat) (b : Bytes) : Prop := ∃ rest, mask < 2 ^ 32 ∧ b = (if flag then 1 else 0) :: leBytes 4 mask ++ rest

/-- Every configuration HOB is written so. -/
def WellWritten (hobs : List Guided) : Prop := ∀ h ∈ hobs, h.guid = hobGuid → ∃ flag mask, Written flag mask h.data

/-- The configuration of a `with_config`. -/
def Build.value : Build → Option Config
  | .config c => some c
  | _ => none

/-- The configuration that the platform gave statically: the last one, and disabled if there is none. -/
def static (bs : List Build) : Config := (bs.filterMap Build.value).getLast?.getD ⟨false, 0⟩

/-- A provider was added, and no configuration was given after it. -/
def Provided (bs : List Build) : Prop := ∃ pre post, bs = pre ++ .component .provider :: post ∧ ∀ b ∈ post, b.value = none

/-- How often `Performance` was added. -/
def wanted (bs : List Build) : Nat := (bs.filter fun b => b.kind == some .performance).length

/-! ### Reading -/

theorem guid_eq : GUID = hobGuid := by decide +kernel

theorem parse_written {flag : Bool} {mask : Nat} {b : Bytes} (h : Written flag mask b) : parse b = .value ⟨flag, mask⟩ := by
  obtain ⟨rest, hm, rfl⟩ := h
  have hl : (leBytes 4 mask).length = 4 := leBytes_length 4 mask
  have ht : ((leBytes 4 mask) ++ rest).take 4 = leBytes 4 mask := by
    rw [List.take_append_of_le_length (by omega), List.take_of_length_le (by omega)]
  have hv : leVal (leBytes 4 mask) = mask := leVal_leBytes_of_lt (by omega)
  unfold parse
  rw [if_neg (by simp)]
  cases flag
  · rw [if_neg (by simp [leVal])]
    simp only [Bool.false_eq_true, if_false, List.cons_append, List.drop_succ_cons, List.drop_zero, ht, hv]
    simp [leVal]
  · rw [if_neg (by simp [leVal])]
    simp only [if_true, List.cons_append, List.drop_succ_cons, List.drop_zero, ht, hv]
    simp [leVal]

theorem parseHobs_skip {p : Bool} {h : Guided} {hs : List Guided} (hg : h.guid ≠ hobGuid) : parseHobs p (h :: hs) = parseHobs p hs := by
  simp [parseHobs, guid_eq, hg]

theorem parseHobs_take {h : Guided} {hs : List Guided} (hg : h.guid = hobGuid) :
    parseHobs true (h :: hs) = match parse h.data with
      | .panic => .panic
      | .undefined => .undefined
      | .value c => match parseHobs true hs with
        | .ok l => .ok (c :: l)
        | .panic => .panic
        | .undefined => .undefined := by
  simp only [parseHobs, guid_eq, hg, beq_self_eq_true, Bool.and_self, if_true]
  rfl

theorem parseHobs_none : ∀ hs : List Guided, parseHobs false hs = .ok []
  | [] => rfl
  | h :: hs => by simp [parseHobs, parseHobs_none hs]

theorem parseHobs_absent {p : Bool} : ∀ {hs : List Guided}, (∀ h ∈ hs, h.guid ≠ hobGuid) → parseHobs p hs = .ok []
  | [], _ => rfl
  | h :: hs, hh => by
    rw [parseHobs_skip (hh h (by simp)), parseHobs_absent fun x hx => hh x (by simp [hx])]

theorem parseHobs_well {p : Bool} : ∀ {hs : List Guided}, WellWritten hs → ∃ l, parseHobs p hs = .ok l
  | [], _ => ⟨[], rfl⟩
  | h :: hs, hw => by
    obtain ⟨l, hl⟩ := parseHobs_well (p := p) (hs := hs) fun x hx => hw x (by simp [hx])
    by_cases hg : h.guid = hobGuid
    · cases p
      · exact ⟨_, parseHobs_none _⟩
      · obtain ⟨f, m, hfm⟩ := hw h (by simp) hg
        exact ⟨⟨f, m⟩ :: l, by rw [parseHobs_take hg, parse_written hfm, hl]⟩
    · exact ⟨l, by rw [parseHobs_skip hg, hl]⟩

theorem parseHobs_first : ∀ {pre post : List Guided} {h : Guided} {flag : Bool} {mask : Nat}, (∀ x ∈ pre, x.guid ≠ hobGuid) → h.guid = hobGuid → Written flag mask h.data →
    WellWritten post → ∃ l, parseHobs true (pre ++ h :: post) = .ok (⟨flag, mask⟩ :: l)
  | [], post, h, flag, mask, _, hg, hw, hp => by
    obtain ⟨l, hl⟩ := parseHobs_well (p := true) hp
    exact ⟨l, by rw [List.nil_append, parseHobs_take hg, parse_written hw, hl]⟩
  | x :: pre, post, h, flag, mask, hpre, hg, hw, hp => by
    obtain ⟨l, hl⟩ := parseHobs_first (pre := pre) (fun y hy => hpre y (by simp [hy])) hg hw hp
    exact ⟨l, by rw [List.cons_append, parseHobs_skip (hpre x (by simp)), hl]⟩

/-! ### Dispatching -/

theorem pass_locked {hobs : List Config} : ∀ {ks : List Kind} {s : State}, s.cell.locked = true →
    pass hobs ks s = (ks.filter (· == .provider), { s with seen := s.seen ++ List.replicate (ks.count .performance) s.cell.value })
  | [], s, _ => by simp [pass]
  | .provider :: ks, s, h => by
    have hr : run hobs s .provider = (false, s) := by
      cases hobs <;> simp [run, h]
    simp only [pass, hr, pass_locked h]
    simp
  | .performance :: ks, s, h => by
    have hr : run hobs s .performance = (true, { s with seen := s.seen ++ [s.cell.value] }) := by simp [run, h]
    simp only [pass, hr]
    rw [pass_locked (s := { s with seen := s.seen ++ [s.cell.value] }) h]
    simp [List.replicate_succ]

theorem filter_count (ks : List Kind) : (ks.filter (· == .provider)).count .performance = 0 := by
  rw [List.count_eq_zero]
  simp

theorem dispatch_same {hobs : List Config} {ks : List Kind} {s : State} (h : pass hobs ks s = (ks, s)) : dispatch hobs ks s = (ks, s) := by
  rw [dispatch]
  simp [h]

theorem dispatch_again {hobs : List Config} {ks : List Kind} {s : State} (h : (pass hobs ks s).1.length ≠ ks.length) :
    dispatch hobs ks s = dispatch hobs (pass hobs ks s).1 (pass hobs ks s).2 := by
  rw [dispatch]
  simp [h]

theorem dispatch_locked {hobs : List Config} {ks : List Kind} {s : State} (h : s.cell.locked = true) :
    dispatch hobs ks s = (ks.filter (· == .provider), { s with seen := s.seen ++ List.replicate (ks.count .performance) s.cell.value }) := by
  have hp := pass_locked (hobs := hobs) (ks := ks) h
  by_cases hl : (pass hobs ks s).1.length = ks.length
  · have hd : dispatch hobs ks s = pass hobs ks s := by
      rw [dispatch]
      simp [hl]
    rw [hd, hp]
  · rw [dispatch_again hl, hp]
    apply dispatch_same
    rw [pass_locked (by exact h), filter_count]
    simp

theorem pass_stuck {hobs : List Config} : ∀ {ks : List Kind} {s : State}, s.cell.locked = false → (hobs = [] ∨ .provider ∉ ks) → pass hobs ks s = (ks, s)
  | [], _, _, _ => rfl
  | .provider :: ks, s, h, hn => by
    have he : hobs = [] := by
      rcases hn with hn | hn
      · exact hn
      · simp at hn
    have hr : run hobs s .provider = (false, s) := by simp [run, he]
    simp only [pass, hr, pass_stuck h (.inl he)]
    simp
  | .performance :: ks, s, h, hn => by
    have hr : run hobs s .performance = (false, s) := by simp [run, h]
    have hn' : hobs = [] ∨ .provider ∉ ks := hn.imp id fun hx hy => hx (by simp [hy])
    simp only [pass, hr, pass_stuck h hn']
    simp

theorem pass_runs {c : Config} {hobs : List Config} : ∀ {ks : List Kind} {s : State}, s.cell.locked = false → .provider ∈ ks →
    ∃ ks' j, pass (c :: hobs) ks s = (ks', ⟨provide c s.cell, s.seen ++ List.replicate j (provide c s.cell).value⟩) ∧ ks'.length < ks.length ∧
      j + ks'.count .performance = ks.count .performance
  | [], _, _, hm => by simp at hm
  | .provider :: ks, s, h, _ => by
    have hr : run (c :: hobs) s .provider = (true, { s with cell := provide c s.cell }) := by simp [run, h]
    refine ⟨ks.filter (· == .provider), ks.count .performance, ?_, ?_, ?_⟩
    · simp only [pass, hr]
      rw [pass_locked (s := { s with cell := provide c s.cell }) (by rfl)]
      simp
    · have := List.length_filter_le (· == Kind.provider) ks
      simp
      omega
    · rw [filter_count]
      simp
  | .performance :: ks, s, h, hm => by
    have hr : run (c :: hobs) s .performance = (false, s) := by simp [run, h]
    obtain ⟨ks', j, h1, h2, h3⟩ := pass_runs (c := c) (hobs := hobs) (ks := ks) h (by simpa using hm)
    refine ⟨.performance :: ks', j, ?_, ?_, ?_⟩
    · simp only [pass, hr, h1]
      simp
    · simp; omega
    · simp; omega

/-- What `Performance` was entered with after all. -/
def finish (hs : List Config) (ks : List Kind) (c : Cell) : List Config :=
  (dispatch hs (dispatch hs ks ⟨c, []⟩).1 ⟨⟨(dispatch hs ks ⟨c, []⟩).2.cell.value, true⟩, (dispatch hs ks ⟨c, []⟩).2.seen⟩).2.seen

theorem finish_locked {hs : List Config} {ks : List Kind} {c : Cell} (h : c.locked = true) : finish hs ks c = List.replicate (ks.count .performance) c.value := by
  unfold finish
  rw [dispatch_locked (s := ⟨c, []⟩) h, dispatch_locked (by rfl)]
  simp only [filter_count]
  simp

theorem finish_stuck {hs : List Config} {ks : List Kind} {c : Cell} (h : c.locked = false) (hn : hs = [] ∨ .provider ∉ ks) :
    finish hs ks c = List.replicate (ks.count .performance) c.value := by
  unfold finish
  rw [dispatch_same (pass_stuck (s := ⟨c, []⟩) h hn), dispatch_locked (by rfl)]
  simp

theorem finish_runs {x : Config} {hs : List Config} {ks : List Kind} {c : Cell} (h : c.locked = false) (hm : .provider ∈ ks) :
    finish (x :: hs) ks c = List.replicate (ks.count .performance) (provide x c).value := by
  obtain ⟨ks', j, h1, h2, h3⟩ := pass_runs (c := x) (hobs := hs) (s := ⟨c, []⟩) h hm
  unfold finish
  rw [dispatch_again (ks := ks) (s := ⟨c, []⟩) (by rw [h1]; show ks'.length ≠ _; omega), h1, dispatch_locked (s := ⟨provide x c, _⟩) (by rfl), dispatch_locked (by rfl)]
  simp only [filter_count, List.nil_append]
  rw [← h3, List.append_assoc, List.replicate_append_replicate, List.replicate_append_replicate, Nat.add_zero]

/-! ### Building -/

theorem cell_value : ∀ (bs : List Build) (c : Option Cell), (present (bs.foldl Build.cell c)).value = (bs.filterMap Build.value).getLast?.getD (present c).value
  | [], c => rfl
  | .config v :: bs, c => by
    rw [List.foldl_cons, cell_value bs]
    simp [Build.value, Build.cell, present, List.getLast?_cons]
  | .component .provider :: bs, c => by
    rw [List.foldl_cons, cell_value bs]
    simp [Build.value, Build.cell, present]
  | .component .performance :: bs, c => by
    rw [List.foldl_cons, cell_value bs]
    simp [Build.value, Build.cell, present]

theorem cell_stays : ∀ {bs : List Build} {c : Option Cell}, (∀ b ∈ bs, b.value = none) → (present c).locked = false → (present (bs.foldl Build.cell c)).locked = false
  | [], _, _, h => h
  | .config v :: _, _, hb, _ => by simp [Build.value] at hb
  | .component .provider :: bs, c, hb, h => by
    rw [List.foldl_cons]
    exact cell_stays (fun b hm => hb b (by simp [hm])) (by simp [Build.cell, present])
  | .component .performance :: bs, c, hb, h => by
    rw [List.foldl_cons]
    exact cell_stays (fun b hm => hb b (by simp [hm])) (by simpa [Build.cell, present] using h)

theorem cell_provided {bs : List Build} (h : Provided bs) : (present (bs.foldl Build.cell none)).locked = false := by
  obtain ⟨pre, post, rfl, hp⟩ := h
  rw [List.foldl_append, List.foldl_cons]
  exact cell_stays hp (by simp [Build.cell, present])

theorem cell_unlocked : ∀ {bs : List Build} {c : Option Cell}, (present (bs.foldl Build.cell c)).locked = false → ((present c).locked = false ∧ ∀ b ∈ bs, b.value = none) ∨ Provided bs
  | [], _, h => .inl ⟨h, by simp⟩
  | b :: bs, c, h => by
    rw [List.foldl_cons] at h
    rcases cell_unlocked h with ⟨h1, h2⟩ | ⟨pre, post, h1, h2⟩
    · cases b with
      | config v => simp [Build.cell, present] at h1
      | component k =>
        cases k with
        | provider => exact .inr ⟨[], bs, rfl, h2⟩
        | performance =>
          refine .inl ⟨by simpa [Build.cell, present] using h1, ?_⟩
          intro x hx
          rcases List.mem_cons.1 hx with rfl | hx
          · rfl
          · exact h2 x hx
    · exact .inr ⟨b :: pre, post, by rw [h1, List.cons_append], h2⟩

theorem cell_not_provided {bs : List Build} (h : ¬ Provided bs) : (present (bs.foldl Build.cell none)).locked = true := by
  cases hl : (present (bs.foldl Build.cell none)).locked
  · rcases cell_unlocked hl with ⟨h1, _⟩ | h1
    · simp [present] at h1
    · exact absurd h1 h
  · rfl

theorem cell_static (bs : List Build) : (present (bs.foldl Build.cell none)).value = static bs := cell_value bs none

theorem count_wanted : ∀ bs : List Build, (bs.filterMap Build.kind).count .performance = wanted bs
  | [] => rfl
  | .config v :: bs => by
    have := count_wanted bs
    have hk : (Build.config v :: bs).filterMap Build.kind = bs.filterMap Build.kind := rfl
    rw [hk, this]
    simp [wanted, Build.kind]
  | .component .provider :: bs => by
    have := count_wanted bs
    simp only [wanted] at this ⊢
    simpa [Build.kind] using this
  | .component .performance :: bs => by
    have := count_wanted bs
    simp only [wanted] at this ⊢
    simpa [Build.kind] using this

theorem provider_mem {bs : List Build} : .provider ∈ bs.filterMap Build.kind ↔ .component .provider ∈ bs := by
  rw [List.mem_filterMap]
  constructor
  · rintro ⟨b, hb, hk⟩
    cases b with
    | config v => simp [Build.kind] at hk
    | component k => simp [Build.kind] at hk; subst hk; exact hb
  · intro h
    exact ⟨_, h, rfl⟩

theorem boot_eq {bs : List Build} {hobs : List Guided} {hs : List Config} (h : parseHobs ((bs.filterMap Build.kind).contains .provider) hobs = .ok hs) :
    boot bs hobs = .ok (finish hs (bs.filterMap Build.kind) (present (bs.foldl Build.cell none))) := by
  simp only [boot, h, finish]

theorem contains_provider {bs : List Build} (h : .component .provider ∈ bs) : (bs.filterMap Build.kind).contains .provider = true := by
  rw [List.contains_iff_mem]
  exact provider_mem.2 h

/-! ### The properties -/

/-- The first configuration HOB decides: every `Performance` is entered once with its flag, and with its mask if the flag is set, whatever the order of the components. -/
theorem configured_by_hob_partial {bs : List Build} (hb : Provided bs) {pre post : List Guided} {h : Guided} {flag : Bool} {mask : Nat} (hpre : ∀ x ∈ pre, x.guid ≠ hobGuid)
    (hg : h.guid = hobGuid) (hw : Written flag mask h.data) (hp : WellWritten post) :
    boot bs (pre ++ h :: post) = .ok (List.replicate (wanted bs) ⟨flag, if flag then mask else (static bs).mask⟩) := by
  have hm : .component .provider ∈ bs := by
    obtain ⟨a, b, rfl, _⟩ := hb
    simp
  obtain ⟨l, hl⟩ := parseHobs_first hpre hg hw hp
  rw [boot_eq (by rw [contains_provider hm]; exact hl), finish_runs (cell_provided hb) (provider_mem.2 hm), count_wanted]
  congr 2
  unfold provide
  cases flag <;> simp [cell_static]

/-- Without a configuration HOB, or without a provider, every `Performance` is entered once with what the platform gave. -/
theorem configured_statically {bs : List Build} {hobs : List Guided} (h : (∀ x ∈ hobs, x.guid ≠ hobGuid) ∨ .component .provider ∉ bs) :
    boot bs hobs = .ok (List.replicate (wanted bs) (static bs)) := by
  have hl : parseHobs ((bs.filterMap Build.kind).contains .provider) hobs = .ok [] := by
    rcases h with h | h
    · exact parseHobs_absent h
    · have : (bs.filterMap Build.kind).contains .provider = false := by
        rw [← Bool.not_eq_true, List.contains_iff_mem, provider_mem]
        exact h
      rw [this]
      exact parseHobs_none _
  rw [boot_eq hl]
  cases hc : (present (bs.foldl Build.cell none)).locked
  · rw [finish_stuck hc (.inl rfl), count_wanted, cell_static]
  · rw [finish_locked hc, count_wanted, cell_static]

/-- A HOB that says disabled: the entry point of the component does nothing. -/
theorem disabled_by_hob {bs : List Build} (hb : Provided bs) {pre post : List Guided} {h : Guided} {mask : Nat} (hpre : ∀ x ∈ pre, x.guid ≠ hobGuid)
    (hg : h.guid = hobGuid) (hw : Written false mask h.data) (hp : WellWritten post) {l : List Config} (hl : boot bs (pre ++ h :: post) = .ok l) {c : Config} (hc : c ∈ l)
    (dbg : Bool) (services : Nat) (recs : Option (List (Nat × Bytes))) (regions : Option (List Exchange.Region)) (a : Component.Answers) (s : Component.Boot) :
    Component.entry dbg c services recs regions a s = some (s, none) := by
  rw [configured_by_hob_partial hb hpre hg hw hp] at hl
  injection hl with hl
  subst hl
  have := List.eq_of_mem_replicate hc
  subst this
  simp [Component.entry]

/-! ### Where it fails -/

/-- A configuration given after the provider was added: the provider never runs, and the HOBs are ignored without a word. -/
theorem late_config_hides_hob {bs : List Build} (hb : ¬ Provided bs) {hobs : List Guided} (hw : WellWritten hobs) : boot bs hobs = .ok (List.replicate (wanted bs) (static bs)) := by
  obtain ⟨l, hl⟩ := parseHobs_well (p := (bs.filterMap Build.kind).contains .provider) hw
  rw [boot_eq hl, finish_locked (cell_not_provided hb), count_wanted, cell_static]

theorem parseHobs_stops {f : Read} {r : Result (List Config)} (hf : (f = .panic ∧ r = .panic) ∨ (f = .undefined ∧ r = .undefined)) : ∀ {pre post : List Guided} {h : Guided},
    WellWritten pre → h.guid = hobGuid → parse h.data = f → parseHobs true (pre ++ h :: post) = r
  | [], post, h, _, hg, hp => by
    rw [List.nil_append, parseHobs_take hg, hp]
    rcases hf with ⟨rfl, rfl⟩ | ⟨rfl, rfl⟩ <;> rfl
  | x :: pre, post, h, hpre, hg, hp => by
    have ih := parseHobs_stops hf (pre := pre) (post := post) (fun y hy => hpre y (by simp [hy])) hg hp
    rw [List.cons_append]
    by_cases hx : x.guid = hobGuid
    · obtain ⟨fl, m, hfm⟩ := hpre x (by simp) hx
      rw [parseHobs_take hx, parse_written hfm, ih]
      rcases hf with ⟨rfl, rfl⟩ | ⟨rfl, rfl⟩ <;> rfl
    · rw [parseHobs_skip hx, ih]

/-- A configuration HOB with fewer than five bytes stops the boot, wherever it is in the list. -/
theorem short_hob_panics {bs : List Build} (hb : .component .provider ∈ bs) {pre post : List Guided} {h : Guided} (hpre : WellWritten pre) (hg : h.guid = hobGuid)
    (hs : h.data.length < 5) : boot bs (pre ++ h :: post) = .panic := by
  have := parseHobs_stops (.inl ⟨rfl, rfl⟩) (post := post) hpre hg (show parse h.data = .panic by simp [parse, hs])
  simp only [boot, contains_provider hb, this]

/-- A flag that is neither 0 nor 1 is copied as a `bool`: undefined behaviour. -/
theorem odd_flag_undefined {bs : List Build} (hb : .component .provider ∈ bs) {pre post : List Guided} {h : Guided} (hpre : WellWritten pre) (hg : h.guid = hobGuid)
    {b : UInt8} {rest : Bytes} (hd : h.data = b :: rest) (hr : 4 ≤ rest.length) (hb2 : 1 < b.toNat) : boot bs (pre ++ h :: post) = .undefined := by
  have hp : parse h.data = .undefined := by
    rw [hd]
    unfold parse
    rw [if_neg (by simp; omega), if_pos (by simpa [leVal] using hb2)]
  have := parseHobs_stops (.inr ⟨rfl, rfl⟩) (post := post) hpre hg hp
  simp only [boot, contains_provider hb, this]

/-! ### Cases -/

/-- The component before the provider, a static configuration before both, and two HOBs. -/
def sample : List Build := [.config ⟨true, 31⟩, .component .performance, .component .provider]

theorem sample_provided : Provided sample := ⟨[.config ⟨true, 31⟩, .component .performance], [], rfl, by simp⟩

example : boot sample [⟨[1, 2], []⟩, ⟨hobGuid, [1, 3, 0, 0, 0, 99]⟩, ⟨hobGuid, [0, 7, 0, 0, 0]⟩] = .ok [⟨true, 3⟩] :=
  configured_by_hob_partial (pre := [⟨[1, 2], []⟩]) (post := [⟨hobGuid, [0, 7, 0, 0, 0]⟩]) (flag := true) (mask := 3) sample_provided (by decide) rfl ⟨[99], by decide, by decide⟩
    (by intro h hh hg; simp at hh; subst hh; exact ⟨false, 7, [], by decide, by decide⟩)

example : boot sample [⟨hobGuid, [0, 7, 0, 0, 0]⟩] = .ok [⟨false, 31⟩] :=
  configured_by_hob_partial (pre := []) (post := []) (flag := false) (mask := 7) sample_provided (by simp) rfl ⟨[], by decide, by decide⟩ (by intro h hh; simp at hh)

example : boot sample [⟨[1, 2], [5]⟩] = .ok [⟨true, 31⟩] := configured_statically (.inl (by decide))

/-- The same HOB with the configuration given last. -/
theorem sample_late : boot [.component .provider, .component .performance, .config ⟨true, 31⟩] [⟨hobGuid, [0, 7, 0, 0, 0]⟩] = .ok [⟨true, 31⟩] :=
  late_config_hides_hob (by
      rintro ⟨pre, post, h, hp⟩
      have hl : (Build.config ⟨true, 31⟩) ∈ post := by
        match pre, h with
        | [], h => simp at h; rw [← h]; simp
        | [_], h => simp at h
        | [_, _], h => simp at h
        | _ :: _ :: _ :: pre, h =>
          have := congrArg List.length h
          simp at this
      simpa [Build.value] using hp _ hl)
    (by intro h hh hg; simp at hh; subst hh; exact ⟨false, 7, [], by decide, by decide⟩)

example : boot sample [⟨hobGuid, [1, 3, 0, 0]⟩] = .panic := short_hob_panics (pre := []) (post := []) (by simp [sample]) (by intro h hh; simp at hh) rfl (by decide)

example : boot sample [⟨hobGuid, [2, 3, 0, 0, 0]⟩] = .undefined :=
  odd_flag_undefined (pre := []) (post := []) (rest := [3, 0, 0, 0]) (by simp [sample]) (by intro h hh; simp at hh) rfl rfl (by decide) (by decide)

end Verif.Perf.Setup
