import Verif.Tables.ConfigProps
/-!
Concrete histories of the configuration tables.
-/
namespace Verif.Tables

def someServices (n : Nat) : Services := ⟨⟨0x56524553544f4f42, 0x20046, 24 + n, 0, 0⟩, List.replicate n 0⟩

def start : St := initial 0x5453595320494249 0x20046 0x1000 0x2000 0 (fun _ => ⟨0, 0⟩) (someServices 352) (someServices 112)

/-- Two tables, one replaced, one removed, one never there. -/
def someHistory : List Op :=
  [.install (some 0x5000) 7 0xA000, .install (some 0x6000) 8 0xB000, .console ⟨1, 2, 3, 4, 5, 6⟩, .install (some 0x5000) 7 0xC000,
    .install (some 0x6000) 9 0, .install (some 0x6000) 8 0]

theorem someHistory_proper : ∀ o ∈ someHistory, o.Proper := by
  intro o ho
  simp only [someHistory, List.mem_cons, List.mem_nil_iff, or_false] at ho
  rcases ho with rfl | rfl | rfl | rfl | rfl | rfl
  · exact ⟨_, rfl, by decide⟩
  · exact ⟨_, rfl, by decide⟩
  · trivial
  · exact ⟨_, rfl, by decide⟩
  · exact ⟨_, rfl, by decide⟩
  · exact ⟨_, rfl, by decide⟩

example : ∃ s, start.run someHistory = some s ∧ Ordered s ∧ lookup s.entries 7 = some 0xC000 ∧ lookup s.entries 8 = none
    ∧ s.signalled = [7, 8, 7, 8] ∧ ChecksumOk s.sys.bytes := by
  obtain ⟨s, h1, h2, h3, h4, h5⟩ := config_tables 0x5453595320494249 0x20046 0x1000 0x2000 0 (fun _ => ⟨0, 0⟩) (bs := someServices 352) (rs := someServices 112)
    ⟨rfl, List.length_replicate ..⟩ ⟨rfl, List.length_replicate ..⟩ someHistory_proper
  exact ⟨s, h1, h2, (h3 7).trans rfl, (h3 8).trans rfl, h4.trans rfl, h5 rfl⟩

/-- After a driver wrote the console fields the checksum is not right until the next change through the core. -/
theorem console_spoils_checksum : ∃ s, start.run [.console ⟨1, 2, 3, 4, 5, 6⟩] = some s ∧ ¬ ChecksumOk s.sys.bytes :=
  ⟨_, rfl, fun h => absurd h.2 (by decide +kernel)⟩

/-- Removing the last table leaves a null pointer, and a table can be installed again. -/
example : ((start.run [.install (some 0x5000) 7 0xA000, .install (some 0x6000) 7 0]).map fun s => (s.sys.table, s.sys.count)) = some (0, 0) := by
  decide +kernel

example : ((start.run [.install (some 0x5000) 7 0xA000, .install (some 0x6000) 7 0, .install (some 0x7000) 7 0xB000]).map fun s =>
    (s.sys.table, s.sys.count, s.entries)) = some (0x7000, 1, [⟨7, 0xB000⟩]) := by
  decide +kernel

/-- No memory for the new list: the core panics. -/
theorem no_memory_panics (s : St) (h : Ordered s) (g : Nat) {t : Nat} (ht : t ≠ 0) : (install s none g t).1 = .panic := by
  have h0 : ¬ (s.sys.table = 0 ∧ s.sys.count ≠ 0) := fun hh => hh.2 (h.null.1 hh.1)
  unfold install
  rw [if_neg h0, newEntries_eq h, newEntries_set h.once ht]
  have hne : (if g ∈ s.entries.map Entry.guid then s.entries.map (fun e => if e.guid = g then ({ e with table := t } : Entry) else e) else s.entries ++ [⟨g, t⟩]) ≠ [] := by
    split
    · rename_i hg
      intro hh
      rw [List.map_eq_nil_iff] at hh
      rw [hh] at hg; cases hg
    · simp
  dsimp only
  unfold putEntries
  rw [if_neg hne]

end Verif.Tables
