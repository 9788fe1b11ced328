import Verif.Services.Lemmas
import Verif.Misc.Handoff
/-!
Model of `/repo/patina_dxe_core/src/memory_attributes_protocol.rs` lines 204-253: how the core installs the memory attribute protocol (`lib.rs` line 475) and takes it away
when compatibility mode is entered (`gcd.rs` line 329). What the protocol does is the matter of C65 and C116.

The protocol database is that of `Verif.Protocol.Model`; log output is left out, except that a failed removal is only logged.
-/
namespace Verif.Misc.MemAttr

open Verif.Protocol Verif.Services

/-- `efi::protocols::memory_attribute::PROTOCOL_GUID` of r-efi, F4560CF6-40EC-4B4A-A192-BF1D57D0B189. -/
def GUID : Nat := Handoff.guid 0xf4560cf6 0x40ec 0x4b4a [0xa1, 0x92, 0xbf, 0x1d, 0x57, 0xd0, 0xb1, 0x89]

/-- The protocol database and the two static cells, memory_attributes_protocol.rs lines 204-205. A null pointer is 0. -/
structure St where
  db : Db
  handle : Nat
  interface : Nat

/-- The cells before anything is installed, lines 204-205. -/
def St.new (db : Db) : St := ⟨db, 0, 0⟩

/-- `install_memory_attributes_protocol`, lines 208-224, with the box at address `p`. `none` is a panic of the database. -/
def install (hash : Nat → Nat → Nat) (lim : Nat) (p : Nat) (s : St) : Option St :=
  match s.db.install hash lim none GUID p with
  | (.ok (h, _), db) => some ⟨db, h, p⟩
  | (.err _, db) => some ⟨db, s.handle, p⟩
  | (.panic, _) => none

/-- The calls of others between, which do not touch the cells. -/
def others (hash : Nat → Nat → Nat) (lim : Nat) (ops : List Op) (s : St) : St := { s with db := s.db.run hash lim ops }

/-- `uninstall_memory_attributes_protocol`, lines 228-253. The cells are not cleared. -/
def uninstall (s : St) : St :=
  if s.handle ≠ 0 ∧ s.interface ≠ 0 then { s with db := (s.db.uninstall s.handle GUID s.interface).2 }
  else s

/-- The core installs the protocol, others do what they like, and compatibility mode is entered. -/
def boot (hash : Nat → Nat → Nat) (lim : Nat) (p : Nat) (before after : List Op) : Option St :=
  (install hash lim p (St.new (Db.new.run hash lim before))).map fun s => uninstall (others hash lim after s)

/-! ### Specification -/

/-- The GUID of the protocol by its bytes in memory. -/
def guid : Nat := 0xf60c56f4ec404a4ba192bf1d57d0b189

theorem guid_eq : GUID = guid := by decide +kernel

theorem made_run (hash : Nat → Nat → Nat) (lim : Nat) (ops : List Op) : ∀ {db : Db}, Made hash lim db → Made hash lim (db.run hash lim ops) := by
  induction ops with
  | nil => exact fun h => h
  | cons op ops ih => exact fun h => ih (h.step op)

theorem made_new (hash : Nat → Nat → Nat) (lim : Nat) : Made hash lim Db.new := ⟨[], rfl⟩

theorem install_inv {hash : Nat → Nat → Nat} {lim p : Nat} {s t : St} (hr : Reachable s.db) (h : install hash lim p s = some t) :
    ∃ ns, (s.db.install hash lim none GUID p).1 = .ok (t.handle, ns) ∧ t.db = (s.db.install hash lim none GUID p).2 ∧ t.interface = p := by
  unfold install at h
  split at h
  · rename_i k ns db e
    cases h
    exact ⟨ns, by rw [e], by rw [e], rfl⟩
  · rename_i x db e
    rcases install_new hr hash lim GUID p with ⟨k, ns, h1, _⟩ | ⟨h1, _⟩
    · rw [e] at h1
      cases h1
    · rw [e] at h1
      cases h1
  · cases h

/-! ### The properties -/

/-- Installing puts the protocol on a new handle, without users, and changes nothing else. -/
theorem installed (hash : Nat → Nat → Nat) (lim p : Nat) {s t : St} (hr : Reachable s.db) (h : install hash lim p s = some t) :
    t.handle ≠ 0 ∧ s.db.valid t.handle = false ∧ t.interface = p ∧
      ∀ h' g', lookup t.db h' g' = (if h' = t.handle ∧ g' = guid then some p else lookup s.db h' g') ∧
        users t.db h' g' = (if h' = t.handle ∧ g' = guid then [] else users s.db h' g') := by
  obtain ⟨ns, e1, e2, e3⟩ := install_inv hr h
  have hi := install_returns hr e1
  rcases hi with hi | ⟨_, hv, h0⟩
  · cases hi
  · refine ⟨h0, hv, e3, fun h' g' => ?_⟩
    rw [e2, ← guid_eq]
    exact install_effect hr e1 h' g'

/-- Entering compatibility mode takes the protocol away exactly if it is still there and nobody is recorded as its user; nothing else changes in either case. -/
theorem removed_iff {s : St} (h0 : s.handle ≠ 0) (hp : s.interface ≠ 0) (hl : lookup s.db s.handle guid = some s.interface) :
    (lookup (uninstall s).db s.handle guid = none ↔ users s.db s.handle guid = []) ∧
    (users s.db s.handle guid ≠ [] → uninstall s = s) ∧
    ∀ h' g', ¬ (h' = s.handle ∧ g' = guid) → lookup (uninstall s).db h' g' = lookup s.db h' g' ∧ users (uninstall s).db h' g' = users s.db h' g' := by
  have hv := valid_of_lookup hl
  have hr := uninstall_result (db := s.db) s.handle guid s.interface
  rw [if_neg (by rw [hv]; decide), if_neg (fun h => h hl)] at hr
  obtain ⟨he, hf⟩ := uninstall_effect (db := s.db) s.handle guid s.interface
  have hu : uninstall s = { s with db := (s.db.uninstall s.handle guid s.interface).2 } := by
    unfold uninstall
    rw [if_pos ⟨h0, hp⟩, guid_eq]
  by_cases hx : users s.db s.handle guid = []
  · rw [if_neg (fun h => h hx)] at hr
    have he := he hr
    refine ⟨⟨fun _ => hx, fun _ => ?_⟩, fun h => absurd hx h, fun h' g' hn => ?_⟩
    · rw [hu, (he s.handle guid).1, if_pos ⟨rfl, rfl⟩]
    · rw [hu]
      have := he h' g'
      rwa [if_neg hn, if_neg hn] at this
  · rw [if_pos hx] at hr
    have hf := hf (by rw [hr]; exact fun h => by cases h)
    have hs : uninstall s = s := by rw [hu, hf]
    refine ⟨⟨fun h => ?_, fun h => absurd h hx⟩, fun _ => hs, fun h' g' _ => by rw [hs]; exact ⟨rfl, rfl⟩⟩
    rw [hs, hl] at h
    cases h

/-- With no user and no other provider nobody finds the protocol afterwards. -/
theorem gone_partial (hash : Nat → Nat → Nat) (lim p : Nat) (hp : p ≠ 0) (before after : List Op) {s : St}
    (hs : install hash lim p (St.new (Db.new.run hash lim before)) = some s)
    (hl : lookup (others hash lim after s).db s.handle guid = some p) (hu : users (others hash lim after s).db s.handle guid = [])
    (ho : ∀ h, h ≠ s.handle → lookup (others hash lim after s).db h guid = none) :
    ∃ t, boot hash lim p before after = some t ∧ (∀ h, lookup t.db h guid = none) ∧ t.db.locateProtocol guid = .err .notFound := by
  have hm := made_run hash lim before (made_new hash lim)
  obtain ⟨ns, e1, e2, e3⟩ := install_inv (s := St.new _) hm.reachable hs
  have h0 := (installed hash lim p (s := St.new _) hm.reachable hs).1
  have hm1 : Made hash lim s.db := by
    rw [e2]
    exact hm.step (.install none GUID p)
  have hm2 : Made hash lim (others hash lim after s).db := made_run hash lim after hm1
  have hr := removed_iff (s := others hash lim after s) h0 (by show s.interface ≠ 0; rw [e3]; exact hp) (by show _ = some s.interface; rw [e3]; exact hl)
  have hnone : ∀ h, lookup (uninstall (others hash lim after s)).db h guid = none := by
    intro h
    by_cases hh : h = s.handle
    · rw [hh]
      exact hr.1.2 hu
    · rw [(hr.2.2 h guid (fun hx => hh hx.1)).1]
      exact ho h hh
  refine ⟨uninstall (others hash lim after s), by unfold boot; rw [hs]; rfl, hnone, ?_⟩
  have hm3 : Reachable (uninstall (others hash lim after s)).db := by
    unfold uninstall
    split
    · exact (hm2.step (.uninstall _ GUID _)).reachable
    · exact hm2.reachable
  exact Handoff.absent_locate hm3 hnone

/-! ### Where it fails -/

theorem used_run {hash : Nat → Nat → Nat} {lim h g : Nat} (ops : List Op) (hc : ∀ a c at_, .removeUsage h g a c at_ ∉ ops) :
    ∀ {db : Db}, Made hash lim db → users db h g ≠ [] →
      users (db.run hash lim ops) h g ≠ [] ∧ lookup (db.run hash lim ops) h g = lookup db h g := by
  induction ops with
  | nil => exact fun _ hu => ⟨hu, rfl⟩
  | cons op ops ih =>
    intro db hm hu
    obtain ⟨u, hu⟩ := List.exists_mem_of_ne_nil _ hu
    obtain ⟨e, _, u', hu', _⟩ := used_stays hm.reachable hash lim op h g u hu (fun a c at_ ho => hc a c at_ (by rw [← ho]; exact List.mem_cons_self ..))
    have := ih (fun a c at_ ho => hc a c at_ (List.mem_cons_of_mem _ ho)) (hm.step op) (List.ne_nil_of_mem hu')
    exact ⟨this.1, this.2.trans e⟩

/-- Whoever has opened the protocol, in whatever way, and has not closed it, keeps it installed: compatibility mode is entered and the protocol stays, for everyone to find. -/
theorem stays_when_used (hash : Nat → Nat → Nat) (lim p : Nat) (hp : p ≠ 0) {s : St} (hm : Made hash lim s.db) (h0 : s.handle ≠ 0) (hi : s.interface = p)
    (hl : lookup s.db s.handle guid = some p) (hu : users s.db s.handle guid ≠ []) (after : List Op) (hc : ∀ a c at_, .removeUsage s.handle guid a c at_ ∉ after) :
    lookup (uninstall (others hash lim after s)).db s.handle guid = some p := by
  obtain ⟨h1, h2⟩ := used_run after hc hm hu
  have hl' : lookup (others hash lim after s).db s.handle guid = some p := h2.trans hl
  have := (removed_iff (s := others hash lim after s) h0 (by show s.interface ≠ 0; rw [hi]; exact hp) (by show _ = some s.interface; rw [hi]; exact hl')).2.1 h1
  rw [this]
  exact hl'

/-- A single HandleProtocol (attributes 1, which the caller is not expected to close) is enough. -/
theorem handle_protocol_keeps : ∃ t, boot (fun n i => n + i) 10 500 [] [.addUsage 1 guid (some 1) none 1] = some t ∧ t.db.locateProtocol guid = .ok 500 := by
  refine ⟨(boot (fun n i => n + i) 10 500 [] [.addUsage 1 guid (some 1) none 1]).get (by decide +kernel), by simp, by decide +kernel⟩

/-- Without any user it is gone. -/
theorem unused_gone : ∃ t, boot (fun n i => n + i) 10 500 [] [] = some t ∧ t.db.locateProtocol guid = .err .notFound := by
  refine ⟨(boot (fun n i => n + i) 10 500 [] []).get (by decide +kernel), by simp, by decide +kernel⟩

/-- The core has installed it first of all. -/
def first : St := (install (fun n i => n + i) 10 500 (St.new (Db.new.run (fun n i => n + i) 10 []))).get (by decide +kernel)
theorem first_eq : install (fun n i => n + i) 10 500 (St.new (Db.new.run (fun n i => n + i) 10 [])) = some first := by simp [first]

example : ∃ t, boot (fun n i => n + i) 10 500 [] [] = some t ∧ (∀ h, lookup t.db h guid = none) ∧ t.db.locateProtocol guid = .err .notFound := by
  have hi := (installed _ _ _ (s := St.new _) (made_new (fun n i => n + i) 10).reachable first_eq).2.2.2
  refine gone_partial _ 10 500 (by decide) [] [] first_eq ?_ ?_ (fun h hn => ?_)
  · show lookup first.db _ _ = _
    rw [(hi _ _).1, if_pos ⟨rfl, rfl⟩]
  · show users first.db _ _ = _
    rw [(hi _ _).2, if_pos ⟨rfl, rfl⟩]
  · show lookup first.db _ _ = _
    rw [(hi _ _).1, if_neg (fun hx => hn hx.1)]
    rfl

/-- Someone has opened it, and others go on. -/
def opened : St := others (fun n i => n + i) 10 [.addUsage 1 guid (some 1) none 1] first

example : lookup (uninstall (others (fun n i => n + i) 10 [.install none 7 9, .uninstall 1 guid 500] opened)).db 1 guid = some 500 := by
  have hm : Made (fun n i => n + i) 10 opened.db := ⟨[.install none GUID 500, .addUsage 1 guid (some 1) none 1], rfl⟩
  exact stays_when_used _ 10 500 (by decide) (s := opened) hm (by decide +kernel) (by decide +kernel) (by decide +kernel) (by decide +kernel)
    [.install none 7 9, .uninstall 1 guid 500] (by intro a c at_ h; simp at h)

end Verif.Misc.MemAttr
