import Verif.Tables.ConfigSpec
namespace Verif.Tables
open Verif.MemMap (crc32 crc32_lt)

/-! ### Bytes -/

theorem header_split (h : Header) :
    h.bytes = (leBytes 8 h.signature ++ leBytes 4 h.revision ++ leBytes 4 h.size) ++ leBytes 4 h.crc ++ leBytes 4 h.reserved := rfl

theorem split_at {a b c d : List UInt8} (ha : a.length = 16) (hb : b.length = 4) (hc : c.length = 4) :
    ((a ++ b ++ c ++ d).drop 16).take 4 = b ∧ (a ++ b ++ c ++ d).take 16 = a ∧ (a ++ b ++ c ++ d).drop 20 = c ++ d := by
  refine ⟨?_, ?_, ?_⟩
  · rw [List.append_assoc, List.append_assoc, List.drop_append_of_le_length (by omega), ← ha, List.drop_length, List.nil_append]
    rw [List.take_append_of_le_length (by omega), ← hb, List.take_length]
  · rw [List.append_assoc, List.append_assoc, List.take_append_of_le_length (by omega), ← ha, List.take_length]
  · have : (20 : Nat) = (a ++ b).length := by rw [List.length_append]; omega
    rw [List.append_assoc (a ++ b), this, List.drop_append_of_le_length (Nat.le_refl _), List.drop_length, List.nil_append]

theorem size_at (h : Header) (rest : List UInt8) : ((h.bytes ++ rest).drop 12).take 4 = leBytes 4 h.size := by
  have e : h.bytes ++ rest = (leBytes 8 h.signature ++ leBytes 4 h.revision) ++ (leBytes 4 h.size ++ (leBytes 4 h.crc ++ (leBytes 4 h.reserved ++ rest))) := by
    rw [header_split]; simp only [List.append_assoc]
  have l : (12 : Nat) = (leBytes 8 h.signature ++ leBytes 4 h.revision).length := by simp
  rw [e]
  conv => lhs; rw [l]
  rw [List.drop_append_of_le_length (Nat.le_refl _), List.drop_length, List.nil_append]
  have l4 : (leBytes 4 h.size).length = 4 := leBytes_length _ _
  rw [List.take_append_of_le_length (by omega)]
  conv => lhs; rw [← l4]
  exact List.take_length

/-- A table whose header holds the checksum of the bytes with zero in its place. -/
theorem checksum_ok (h : Header) (rest : List UInt8) (hs : h.size = 24 + rest.length) (hl : h.size < 2 ^ 32)
    (hc : h.crc = crc32 (({ h with crc := 0 } : Header).bytes ++ rest)) : ChecksumOk (h.bytes ++ rest) := by
  have sp := @split_at (leBytes 8 h.signature ++ leBytes 4 h.revision ++ leBytes 4 h.size) (leBytes 4 h.crc) (leBytes 4 h.reserved) rest
    (by simp) (by simp) (by simp)
  rw [← header_split] at sp
  refine ⟨?_, ?_⟩
  · rw [size_at, leVal_leBytes_of_lt (by simpa using hl), List.length_append, hs]
    rw [header_split]; simp
  · rw [sp.1, sp.2.1, sp.2.2, leVal_leBytes_of_lt (by rw [hc]; exact crc32_lt _), hc]
    congr 1
    rw [header_split]
    simp only [List.append_assoc]
    rfl

def System.rest (t : System) : List UInt8 :=
  leBytes 8 t.vendor ++ leBytes 4 t.revision ++ leBytes 4 t.pad
    ++ leBytes 8 t.console.inHandle ++ leBytes 8 t.console.input ++ leBytes 8 t.console.outHandle ++ leBytes 8 t.console.output
    ++ leBytes 8 t.console.errHandle ++ leBytes 8 t.console.error
    ++ leBytes 8 t.runtime ++ leBytes 8 t.boot ++ leBytes 8 t.count ++ leBytes 8 t.table

theorem System.bytes_eq (t : System) : t.bytes = t.header.bytes ++ t.rest := by
  unfold System.bytes System.rest; simp only [List.append_assoc]

theorem System.rest_length (t : System) : t.rest.length = 96 := by
  unfold System.rest; simp

theorem system_checksum (t : System) (hs : t.header.size = 120) : ChecksumOk t.checksum.bytes := by
  rw [System.bytes_eq]
  refine checksum_ok _ _ ?_ ?_ ?_
  · rw [System.rest_length]; exact hs
  · show t.header.size < _; rw [hs]; decide
  · show crc32 _ = crc32 _
    rw [System.bytes_eq]; rfl

theorem services_checksum (t : Services) (hs : t.header.size = 24 + t.functions.length) (hl : t.header.size < 2 ^ 32) :
    ChecksumOk t.checksum.bytes :=
  checksum_ok _ _ hs hl rfl

/-! ### Entries -/

theorem readEntries_length (m : Nat → Entry) (a n : Nat) : (readEntries m a n).length = n := by
  unfold readEntries; simp

theorem read_write (m : Nat → Entry) (a : Nat) (l : List Entry) : readEntries (writeEntries m a l) a l.length = l := by
  apply List.ext_getElem?
  intro i
  unfold readEntries
  rw [List.getElem?_map]
  by_cases h : i < l.length
  · rw [List.getElem?_range h]
    unfold writeEntries
    have e1 : a ≤ a + 24 * i ∧ (a + 24 * i - a) % 24 = 0 := ⟨by omega, by omega⟩
    have e2 : (a + 24 * i - a) / 24 = i := by omega
    simp only [Option.map_some]
    rw [if_pos e1, e2, List.getElem?_eq_getElem h]
  · have : (List.range l.length)[i]? = none := List.getElem?_eq_none (by simpa using h)
    rw [this, List.getElem?_eq_none (by omega)]; rfl

theorem any_iff (l : List Entry) (g : Nat) : l.any (fun e => e.guid == g) = true ↔ g ∈ l.map Entry.guid := by
  rw [List.any_eq_true, List.mem_map]
  constructor
  · rintro ⟨e, he, h⟩; exact ⟨e, he, by simpa using h⟩
  · rintro ⟨e, he, h⟩; exact ⟨e, he, by simpa using h⟩

theorem lookup_none (l : List Entry) (g : Nat) : lookup l g = none ↔ g ∉ l.map Entry.guid := by
  unfold lookup
  rw [Option.map_eq_none_iff, List.find?_eq_none, List.mem_map]
  constructor
  · rintro h ⟨e, he, hg⟩; exact h e he (by simpa using hg)
  · intro h e he hg; exact h ⟨e, he, by simpa using hg⟩

theorem modify_guids (g t : Nat) (l : List Entry) : (modifyFirst g t l).map Entry.guid = l.map Entry.guid := by
  induction l with
  | nil => rfl
  | cons e l ih => unfold modifyFirst; split <;> simp [ih]

theorem modify_map {g t : Nat} {l : List Entry} (h : (l.map Entry.guid).Nodup) :
    modifyFirst g t l = l.map (fun e => if e.guid = g then { e with table := t } else e) := by
  induction l with
  | nil => rfl
  | cons e l ih =>
    rw [List.map_cons, List.nodup_cons] at h
    unfold modifyFirst
    rw [List.map_cons]
    split
    · rename_i hg
      congr 1
      have : l.map (fun e => if e.guid = g then ({ e with table := t } : Entry) else e) = l.map id := by
        apply List.map_congr_left
        intro x hx
        have : x.guid ≠ g := fun hh => h.1 (List.mem_map.mpr ⟨x, hx, by rw [hh, hg]⟩)
        rw [if_neg this]; rfl
      rw [this, List.map_id]
    · rw [ih h.2]

theorem lookup_modify {g t : Nat} {l : List Entry} (h : g ∈ l.map Entry.guid) (x : Nat) :
    lookup (modifyFirst g t l) x = if x = g then some t else lookup l x := by
  induction l with
  | nil => simp at h
  | cons e l ih =>
    unfold modifyFirst
    split
    · rename_i hg
      by_cases hx : x = g
      · subst hx; rw [if_pos rfl]; unfold lookup; rw [List.find?_cons_of_pos (by simpa using hg)]; rfl
      · rw [if_neg hx]
        have : ¬ e.guid = x := fun hh => hx (by rw [← hh, hg])
        unfold lookup
        rw [List.find?_cons_of_neg (by simpa using this), List.find?_cons_of_neg (by simpa using this)]
    · rename_i hg
      have hm : g ∈ l.map Entry.guid := by
        rw [List.map_cons, List.mem_cons] at h
        rcases h with h | h
        · exact absurd h.symm hg
        · exact h
      have ih := ih hm
      by_cases hx : e.guid = x
      · have : x ≠ g := fun hh => hg (by rw [hx, hh])
        rw [if_neg this]
        unfold lookup
        rw [List.find?_cons_of_pos (by simpa using hx), List.find?_cons_of_pos (by simpa using hx)]
      · unfold lookup at ih ⊢
        rw [List.find?_cons_of_neg (by simpa using hx), List.find?_cons_of_neg (by simpa using hx)]
        exact ih

theorem lookup_append {g t : Nat} {l : List Entry} (h : g ∉ l.map Entry.guid) (x : Nat) :
    lookup (l ++ [⟨g, t⟩]) x = if x = g then some t else lookup l x := by
  unfold lookup
  rw [List.find?_append]
  by_cases hx : x = g
  · subst hx
    have : l.find? (fun e => e.guid == x) = none := by
      have := (lookup_none l x).2 h
      unfold lookup at this
      exact Option.map_eq_none_iff.1 this
    rw [if_pos rfl, this]; simp
  · rw [if_neg hx]
    have : ([⟨g, t⟩] : List Entry).find? (fun e => e.guid == x) = none := by
      simp [List.find?_cons, Ne.symm hx]
    rw [this, Option.or_none]

theorem lookup_filter (l : List Entry) (g x : Nat) :
    lookup (l.filter (fun e => e.guid != g)) x = if x = g then none else lookup l x := by
  by_cases hx : x = g
  · subst hx
    rw [if_pos rfl, lookup_none, List.mem_map]
    rintro ⟨e, he, hg⟩
    have := (List.mem_filter.1 he).2
    simp [hg] at this
  · rw [if_neg hx]
    induction l with
    | nil => rfl
    | cons e l ih =>
      by_cases he : e.guid = g
      · rw [List.filter_cons_of_neg (by simp [he]), ih]
        unfold lookup
        rw [List.find?_cons_of_neg (by simp; omega)]
      · rw [List.filter_cons_of_pos (by simpa using he)]
        unfold lookup at ih ⊢
        by_cases hh : e.guid = x
        · rw [List.find?_cons_of_pos (by simpa using hh), List.find?_cons_of_pos (by simpa using hh)]
        · rw [List.find?_cons_of_neg (by simpa using hh), List.find?_cons_of_neg (by simpa using hh)]
          exact ih

/-! ### One call -/

theorem entries_null {s : St} (h : s.sys.count = 0) : s.entries = [] := by
  unfold St.entries readEntries; rw [h]; rfl

/-- What `newEntries` returns for the list a reader finds. -/
theorem newEntries_eq {s : St} (h : Ordered s) (g t : Nat) :
    newEntries (if s.sys.table = 0 then none else some (readEntries s.mem s.sys.table s.sys.count)) g t
      = newEntries (some s.entries) g t := by
  split
  · rename_i h0
    rw [entries_null (h.null.1 h0)]
    unfold newEntries
    rfl
  · rfl

theorem put_entries {s : St} {a : Nat} (ha : a ≠ 0) (l : List Entry) : ∃ s', putEntries s (some a) l = some s' ∧ s'.entries = l
    ∧ (s'.sys.table = 0 ↔ s'.sys.count = 0) ∧ s'.signalled = s.signalled ∧ s'.sys.header = s.sys.header
    ∧ s'.sys = { s.sys with count := s'.sys.count, table := s'.sys.table }
    ∧ s'.bootServices = s.bootServices ∧ s'.runtimeServices = s.runtimeServices := by
  unfold putEntries
  by_cases hl : l = []
  · rw [if_pos hl]
    exact ⟨_, rfl, by rw [hl]; exact entries_null rfl, by simp, rfl, rfl, rfl, rfl, rfl⟩
  · rw [if_neg hl]
    refine ⟨_, rfl, read_write _ _ _, ?_, rfl, rfl, rfl, rfl, rfl⟩
    show a = 0 ↔ l.length = 0
    constructor
    · intro h; exact absurd h ha
    · intro h; exact absurd (List.length_eq_zero_iff.1 h) hl

/-- All of `install` but the reading: what the call leaves for the list it computed. -/
theorem install_cases {s : St} (h : Ordered s) {a : Nat} (ha : a ≠ 0) (g t : Nat) :
    (newEntries (some s.entries) g t = none ∧ install s (some a) g t = (.err .notFound, s)) ∨
    ∃ l s', newEntries (some s.entries) g t = some l ∧ install s (some a) g t = (.ok (), s') ∧ s'.entries = l
      ∧ (s'.sys.table = 0 ↔ s'.sys.count = 0) ∧ s'.signalled = s.signalled ++ [g] ∧ s'.sys.header.size = s.sys.header.size
      ∧ (s.sys.header.size = 120 → ChecksumOk s'.sys.bytes)
      ∧ (∃ n p c, s'.sys = { s.sys with header := { s.sys.header with crc := c }, count := n, table := p })
      ∧ s'.bootServices = s.bootServices ∧ s'.runtimeServices = s.runtimeServices := by
  have h0 : ¬ (s.sys.table = 0 ∧ s.sys.count ≠ 0) := fun hh => hh.2 (h.null.1 hh.1)
  unfold install
  rw [if_neg h0, newEntries_eq h]
  cases hn : newEntries (some s.entries) g t with
  | none => exact Or.inl ⟨rfl, rfl⟩
  | some l =>
    obtain ⟨s', e1, e2, e3, e4, e5, e6, e7, e8⟩ := @put_entries s a ha l
    dsimp only
    rw [e1]
    refine Or.inr ⟨l, _, rfl, rfl, ?_, ?_, ?_, ?_, ?_, ?_, ?_, ?_⟩
    · exact e2
    · exact e3
    · show s'.signalled ++ [g] = _; rw [e4]
    · show s'.sys.header.size = _; rw [e5]
    · intro hs
      refine system_checksum s'.sys ?_
      rw [e5]; exact hs
    · refine ⟨s'.sys.count, s'.sys.table, s'.sys.checksum.header.crc, ?_⟩
      show s'.sys.checksum = _
      unfold System.checksum
      rw [e6]
    · exact e7
    · exact e8

theorem newEntries_set {l : List Entry} (hn : (l.map Entry.guid).Nodup) {g t : Nat} (ht : t ≠ 0) :
    newEntries (some l) g t = some (if g ∈ l.map Entry.guid then l.map (fun e => if e.guid = g then { e with table := t } else e) else l ++ [⟨g, t⟩]) := by
  unfold newEntries
  dsimp only
  rw [if_pos ht]
  by_cases hg : g ∈ l.map Entry.guid
  · rw [if_pos ((any_iff l g).2 hg), if_pos hg, modify_map hn]
  · rw [if_neg (fun hh => hg ((any_iff l g).1 hh)), if_neg hg]

theorem newEntries_del (l : List Entry) (g : Nat) :
    newEntries (some l) g 0 = if g ∈ l.map Entry.guid then some (l.filter (fun e => e.guid != g)) else none := by
  unfold newEntries
  dsimp only
  rw [if_neg (fun h => h rfl)]
  by_cases hg : g ∈ l.map Entry.guid
  · rw [if_pos ((any_iff l g).2 hg), if_pos hg]
  · rw [if_neg (fun hh => hg ((any_iff l g).1 hh)), if_neg hg]

theorem set_once {l : List Entry} (hn : (l.map Entry.guid).Nodup) (g t : Nat) :
    ((if g ∈ l.map Entry.guid then l.map (fun e => if e.guid = g then { e with table := t } else e) else l ++ [⟨g, t⟩]).map Entry.guid).Nodup := by
  split
  · rw [← modify_map hn, modify_guids]; exact hn
  · rename_i hg
    rw [List.map_append, List.nodup_append]
    refine ⟨hn, by simp, ?_⟩
    intro x hx y hy
    simp at hy
    intro e; subst e; subst hy; exact hg hx

theorem set_some {l : List Entry} (hs : ∀ e ∈ l, e.table ≠ 0) {g t : Nat} (ht : t ≠ 0) :
    ∀ e ∈ (if g ∈ l.map Entry.guid then l.map (fun e => if e.guid = g then { e with table := t } else e) else l ++ [⟨g, t⟩]), e.table ≠ 0 := by
  intro e he
  split at he
  · obtain ⟨x, hx, e1⟩ := List.mem_map.1 he
    subst e1
    split
    · exact ht
    · exact hs x hx
  · rcases List.mem_append.1 he with h | h
    · exact hs e h
    · simp at h; subst h; exact ht

/-- Installing a table under a GUID: the call succeeds. An entry of that GUID is changed where it is; otherwise one is added at the end. The other
entries, their order and the other fields of the system table stay. The checksum is right and the event group of the GUID has been
signalled. -/
theorem install_table {s : St} (h : Ordered s) (hs : s.sys.header.size = 120) {a : Nat} (ha : a ≠ 0) (g : Nat) {t : Nat} (ht : t ≠ 0) :
    ∃ s', install s (some a) g t = (.ok (), s') ∧ Ordered s'
      ∧ s'.entries = (if g ∈ s.entries.map Entry.guid then s.entries.map (fun e => if e.guid = g then { e with table := t } else e)
          else s.entries ++ [⟨g, t⟩])
      ∧ (∀ x, lookup s'.entries x = if x = g then some t else lookup s.entries x)
      ∧ ChecksumOk s'.sys.bytes ∧ s'.signalled = s.signalled ++ [g]
      ∧ (∃ n p c, s'.sys = { s.sys with header := { s.sys.header with crc := c }, count := n, table := p })
      ∧ s'.bootServices = s.bootServices ∧ s'.runtimeServices = s.runtimeServices := by
  rcases install_cases h ha g t with ⟨h1, _⟩ | ⟨l, s', h1, h2, h3, h4, h5, h6, h7, h8, h9, h10⟩
  · rw [newEntries_set h.once ht] at h1; cases h1
  · rw [newEntries_set h.once ht] at h1
    injection h1 with h1
    rw [← h1] at h3
    refine ⟨s', h2, ⟨h4, ?_, ?_⟩, h3, ?_, h7 hs, h5, h8, h9, h10⟩
    · rw [h3]; exact set_once h.once g t
    · rw [h3]; exact set_some h.some ht
    · intro x
      rw [h3]
      split
      · rename_i hg; rw [← modify_map h.once]; exact lookup_modify hg x
      · rename_i hg; exact lookup_append hg x

/-- Removing the table of a GUID: the entry is gone; the others and their order stay. -/
theorem remove_table {s : St} (h : Ordered s) (hs : s.sys.header.size = 120) {a : Nat} (ha : a ≠ 0) {g : Nat} (hg : g ∈ s.entries.map Entry.guid) :
    ∃ s', install s (some a) g 0 = (.ok (), s') ∧ Ordered s'
      ∧ s'.entries = s.entries.filter (fun e => e.guid != g)
      ∧ (∀ x, lookup s'.entries x = if x = g then none else lookup s.entries x)
      ∧ ChecksumOk s'.sys.bytes ∧ s'.signalled = s.signalled ++ [g]
      ∧ (∃ n p c, s'.sys = { s.sys with header := { s.sys.header with crc := c }, count := n, table := p })
      ∧ s'.bootServices = s.bootServices ∧ s'.runtimeServices = s.runtimeServices := by
  rcases install_cases h ha g 0 with ⟨h1, _⟩ | ⟨l, s', h1, h2, h3, h4, h5, h6, h7, h8, h9, h10⟩
  · rw [newEntries_del, if_pos hg] at h1; cases h1
  · rw [newEntries_del, if_pos hg] at h1
    injection h1 with h1
    rw [← h1] at h3
    refine ⟨s', h2, ⟨h4, ?_, ?_⟩, h3, ?_, h7 hs, h5, h8, h9, h10⟩
    · rw [h3]; exact h.once.sublist (List.filter_sublist.map _)
    · rw [h3]; exact fun e he => h.some e (List.mem_filter.1 he).1
    · intro x; rw [h3]; exact lookup_filter _ _ _

/-- Removing what is not there: the error is `NOT_FOUND`, nothing changes and nothing is signalled. -/
theorem remove_missing {s : St} (h : Ordered s) (alloc : Option Nat) {g : Nat} (hg : g ∉ s.entries.map Entry.guid) :
    install s alloc g 0 = (.err .notFound, s) := by
  have h0 : ¬ (s.sys.table = 0 ∧ s.sys.count ≠ 0) := fun hh => hh.2 (h.null.1 hh.1)
  unfold install
  rw [if_neg h0, newEntries_eq h, newEntries_del, if_neg hg]

/-- A null GUID pointer is refused and, before there is a system table, every call is. Neither changes anything. -/
theorem install_refused (s : Option St) (alloc : Option Nat) (g t : Nat) :
    installService s alloc none t = (.err .invalidParameter, s) ∧ installService none alloc (some g) t = (.err .notFound, none) :=
  ⟨rfl, rfl⟩

/-- Otherwise the service is the operation. -/
theorem install_service (s : St) (alloc : Option Nat) (g t : Nat) :
    installService (some s) alloc (some g) t = ((install s alloc g t).1, some (install s alloc g t).2) := rfl

/-! ### Histories -/

/-- The parts of the tables a history keeps right. -/
structure TablesOk (s : St) : Prop where
  ordered : Ordered s
  size : s.sys.header.size = 120
  boot : s.bootServices.header.size = 376 ∧ s.bootServices.functions.length = 352
  runtime : s.runtimeServices.header.size = 136 ∧ s.runtimeServices.functions.length = 112

theorem run_spec {s : St} (h : TablesOk s) {r : Bool} (hr : r = true → ChecksumOk s.sys.bytes) {ops : List Op} (hp : ∀ o ∈ ops, o.Proper) :
    ∃ s', s.run ops = some s' ∧ TablesOk s'
      ∧ (∀ g, lookup s'.entries g = installed g ops (lookup s.entries g))
      ∧ s'.signalled = s.signalled ++ announced ops (lookup s.entries)
      ∧ (upToDate ops (lookup s.entries) r = true → ChecksumOk s'.sys.bytes) := by
  induction ops generalizing s r with
  | nil => exact ⟨s, rfl, h, fun _ => rfl, by simp [announced], hr⟩
  | cons o ops ih =>
    have hp' : ∀ o ∈ ops, o.Proper := fun o ho => hp o (List.mem_cons_of_mem _ ho)
    have ho : o.Proper := hp o (List.mem_cons_self ..)
    cases o with
    | install alloc g t =>
      obtain ⟨a, rfl, ha⟩ := ho
      by_cases ht : t = 0
      · subst ht
        by_cases hg : g ∈ s.entries.map Entry.guid
        · obtain ⟨s1, e1, e2, e3, e4, e5, e6, ⟨n, p, c, e7⟩, e8, e9⟩ := remove_table h.ordered h.size ha hg
          have ok1 : TablesOk s1 := ⟨e2, by rw [e7]; exact h.size, by rw [e8]; exact h.boot, by rw [e9]; exact h.runtime⟩
          have hl : lookup s1.entries = fun x => if x = g then (if (0 : Nat) = 0 then none else some 0) else lookup s.entries x := by
            funext x; rw [e4 x]; rfl
          obtain ⟨s', f1, f2, f3, f4, f5⟩ := ih ok1 (r := true) (fun _ => e5) hp'
          have hne : ¬ ((0 : Nat) = 0 ∧ lookup s.entries g = none) := fun hh => (lookup_none _ _).1 hh.2 hg
          refine ⟨s', ?_, f2, ?_, ?_, ?_⟩
          · show (match install s (some a) g 0 with | (.panic, _) => none | (_, s) => s.run ops) = _
            rw [e1]; exact f1
          · intro x
            rw [f3 x, hl]
            show _ = installed x ops (if g = x then (if (0 : Nat) = 0 then none else some 0) else lookup s.entries x)
            by_cases hx : x = g
            · subst hx; simp
            · simp [hx, Ne.symm hx]
          · rw [f4, e6, hl]
            show _ = s.signalled ++ ((if (0 : Nat) = 0 ∧ lookup s.entries g = none then [] else [g]) ++ announced ops _)
            rw [if_neg hne, List.append_assoc]
          · intro hu
            refine f5 ?_
            rw [hl]
            have hu : upToDate ops (fun x => if x = g then (if (0 : Nat) = 0 then none else some 0) else lookup s.entries x) (r || !(decide ((0 : Nat) = 0) && (lookup s.entries g).isNone)) = true := hu
            have hn : (lookup s.entries g).isNone = false := by
              cases hh : lookup s.entries g with
              | none => exact absurd ⟨rfl, hh⟩ hne
              | some _ => rfl
            rw [hn] at hu
            simpa using hu
        · have e1 := remove_missing h.ordered (some a) hg
          have hn : lookup s.entries g = none := (lookup_none _ _).2 hg
          have hl : lookup s.entries = fun x => if x = g then (if (0 : Nat) = 0 then none else some 0) else lookup s.entries x := by
            funext x
            by_cases hx : x = g
            · subst hx; simp [hn]
            · simp [hx]
          obtain ⟨s', f1, f2, f3, f4, f5⟩ := ih h hr hp'
          refine ⟨s', ?_, f2, ?_, ?_, ?_⟩
          · show (match install s (some a) g 0 with | (.panic, _) => none | (_, s) => s.run ops) = _
            rw [e1]; exact f1
          · intro x
            rw [f3 x]
            show _ = installed x ops (if g = x then (if (0 : Nat) = 0 then none else some 0) else lookup s.entries x)
            by_cases hx : g = x
            · subst hx; rw [hn]; simp
            · simp [hx]
          · rw [f4]
            show _ = s.signalled ++ ((if (0 : Nat) = 0 ∧ lookup s.entries g = none then [] else [g]) ++ announced ops _)
            rw [if_pos ⟨rfl, hn⟩, List.nil_append, ← hl]
          · intro hu
            refine f5 ?_
            have hu : upToDate ops (fun x => if x = g then (if (0 : Nat) = 0 then none else some 0) else lookup s.entries x) (r || !(decide ((0 : Nat) = 0) && (lookup s.entries g).isNone)) = true := hu
            rw [← hl, hn] at hu
            simpa using hu
      · obtain ⟨s1, e1, e2, e3, e4, e5, e6, ⟨n, p, c, e7⟩, e8, e9⟩ := install_table h.ordered h.size ha g ht
        have ok1 : TablesOk s1 := ⟨e2, by rw [e7]; exact h.size, by rw [e8]; exact h.boot, by rw [e9]; exact h.runtime⟩
        have hl : lookup s1.entries = fun x => if x = g then (if t = 0 then none else some t) else lookup s.entries x := by
          funext x; rw [e4 x, if_neg ht]
        obtain ⟨s', f1, f2, f3, f4, f5⟩ := ih ok1 (r := true) (fun _ => e5) hp'
        refine ⟨s', ?_, f2, ?_, ?_, ?_⟩
        · show (match install s (some a) g t with | (.panic, _) => none | (_, s) => s.run ops) = _
          rw [e1]; exact f1
        · intro x
          rw [f3 x, hl]
          show _ = installed x ops (if g = x then (if t = 0 then none else some t) else lookup s.entries x)
          by_cases hx : x = g
          · subst hx; simp
          · simp [hx, Ne.symm hx]
        · rw [f4, e6, hl]
          show _ = s.signalled ++ ((if t = 0 ∧ lookup s.entries g = none then [] else [g]) ++ announced ops _)
          have hc : ¬ (t = 0 ∧ lookup s.entries g = none) := fun hh => ht hh.1
          rw [if_neg hc, List.append_assoc]
        · intro hu
          refine f5 ?_
          rw [hl]
          have hu : upToDate ops (fun x => if x = g then (if t = 0 then none else some t) else lookup s.entries x) (r || !(decide (t = 0) && (lookup s.entries g).isNone)) = true := hu
          have : decide (t = 0) = false := by simpa using ht
          rw [this] at hu
          simpa using hu
    | console c => exact ih (s := { s with sys := { s.sys with console := c } }) (r := false) ⟨⟨h.ordered.null, h.ordered.once, h.ordered.some⟩, h.size, h.boot, h.runtime⟩ (fun hh => by cases hh) hp'
    | bootFunctions f =>
      exact ih (s := { s with bootServices := { s.bootServices with functions := f } }) ⟨⟨h.ordered.null, h.ordered.once, h.ordered.some⟩, h.size, ⟨h.boot.1, ho⟩, h.runtime⟩ hr hp'
    | runtimeFunctions f =>
      exact ih (s := { s with runtimeServices := { s.runtimeServices with functions := f } }) ⟨⟨h.ordered.null, h.ordered.once, h.ordered.some⟩, h.size, h.boot, ⟨h.runtime.1, ho⟩⟩ hr hp'
    | checksum =>
      exact ih (s := checksumAll s) (r := true) ⟨⟨h.ordered.null, h.ordered.once, h.ordered.some⟩, h.size, h.boot, h.runtime⟩ (fun _ => system_checksum s.sys h.size) hp'
    | clearBoot =>
      exact ih (s := clearBoot s) (r := true) ⟨⟨h.ordered.null, h.ordered.once, h.ordered.some⟩, h.size, h.boot, h.runtime⟩ (fun _ => system_checksum _ h.size) hp'

/-- The tables at the start are in order and empty. -/
theorem initial_ok (signature revision boot runtime pad : Nat) (mem : Nat → Entry) {bs rs : Services}
    (hb : bs.header.size = 376 ∧ bs.functions.length = 352) (hr : rs.header.size = 136 ∧ rs.functions.length = 112) :
    TablesOk (initial signature revision boot runtime pad mem bs rs) ∧ (initial signature revision boot runtime pad mem bs rs).entries = []
      ∧ ChecksumOk (initial signature revision boot runtime pad mem bs rs).sys.bytes :=
  ⟨⟨⟨⟨fun _ => rfl, fun _ => rfl⟩, List.nodup_nil, fun e he => by cases he⟩, rfl, hb, hr⟩, rfl, system_checksum _ rfl⟩

/-- Any history from the start: nothing panics; a GUID has the table installed last and not removed since, at most one entry, never a null one; the
pointer is null exactly if there are no entries; exactly the successful calls were signalled, in their order; the checksum is right unless a
driver wrote the fields of the table after the last call that changed it. -/
theorem config_tables (signature revision boot runtime pad : Nat) (mem : Nat → Entry) {bs rs : Services}
    (hb : bs.header.size = 376 ∧ bs.functions.length = 352) (hr : rs.header.size = 136 ∧ rs.functions.length = 112)
    {ops : List Op} (hp : ∀ o ∈ ops, o.Proper) :
    ∃ s, (initial signature revision boot runtime pad mem bs rs).run ops = some s ∧ Ordered s
      ∧ (∀ g, lookup s.entries g = installed g ops none)
      ∧ s.signalled = announced ops (fun _ => none)
      ∧ (upToDate ops (fun _ => none) true = true → ChecksumOk s.sys.bytes) := by
  obtain ⟨h1, h2, h3⟩ := initial_ok signature revision boot runtime pad mem hb hr
  obtain ⟨s, e1, e2, e3, e4, e5⟩ := run_spec h1 (r := true) (fun _ => h3) hp
  have hl : lookup (initial signature revision boot runtime pad mem bs rs).entries = fun _ => none := by rw [h2]; rfl
  rw [hl] at e3 e4 e5
  exact ⟨s, e1, e2.ordered, e3, e4, e5⟩

/-- When boot services end or the checksums are recomputed, all is up to date, whatever drivers wrote before; the services tables too in the second case. -/
theorem recomputed {s : St} (h : TablesOk s) :
    ChecksumOk (checksumAll s).sys.bytes ∧ ChecksumOk (checksumAll s).bootServices.bytes ∧ ChecksumOk (checksumAll s).runtimeServices.bytes
      ∧ ChecksumOk (clearBoot s).sys.bytes ∧ (clearBoot s).sys.boot = 0 ∧ (clearBoot s).sys.console = ⟨0, 0, 0, 0, 0, 0⟩
      ∧ (clearBoot s).sys.runtime = s.sys.runtime ∧ (clearBoot s).entries = s.entries ∧ (checksumAll s).entries = s.entries :=
  ⟨system_checksum _ h.size, services_checksum _ (by rw [h.boot.1, h.boot.2]) (by rw [h.boot.1]; decide),
    services_checksum _ (by rw [h.runtime.1, h.runtime.2]) (by rw [h.runtime.1]; decide), system_checksum _ h.size, rfl, rfl, rfl, rfl, rfl⟩

end Verif.Tables
