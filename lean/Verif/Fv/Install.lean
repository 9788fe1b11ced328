import Verif.Fv.Files
import Verif.Fv.Blocks
import Verif.Services.Reinstall
import Verif.DevicePath.Props
/-!
C84: installing firmware volumes.
-/
namespace Verif.Fv
open Verif.Ffs Verif.Protocol Verif.Services

variable {β : Type}

/-! ### Specification vocabulary -/

/-- Functions of events may install interfaces and firmware volumes of their own, but take nothing away and replace nothing. -/
structure Grows (w : World (Rest β)) : Prop where
  interfaces : ∀ s e h g i, lookup s.db h g = some i → lookup (w.signal s e).2.db h g = some i
  info : ∀ s e p x, s.rest.info.get p = some x → (w.signal s e).2.rest.info.get p = some x
  paths : ∀ s e p x, s.rest.paths.get p = some x → (w.signal s e).2.rest.paths.get p = some x
  queue : ∀ r e, (∀ p x, r.info.get p = some x → (w.queue r e).2.info.get p = some x) ∧ ∀ p x, r.paths.get p = some x → (w.queue r e).2.paths.get p = some x

/-- There is neither an interface of a volume nor a device path at this address. -/
def Free (r : Rest β) (p : Nat) : Prop := r.info.get p = none ∧ r.paths.get p = none

/-- Functions of events do not use the address, which has not been allocated yet. -/
structure Unused (w : World (Rest β)) (p : Nat) : Prop where
  signal : ∀ s e, Free s.rest p → Free (w.signal s e).2.rest p
  queue : ∀ r e, Free r p → Free (w.queue r e).2 p

/-- Everything in `s` is still in `s'`: interfaces, volumes behind them and device paths. -/
structure Kept (s s' : St (Rest β)) : Prop where
  interfaces : ∀ h g i, lookup s.db h g = some i → lookup s'.db h g = some i
  info : ∀ p x, s.rest.info.get p = some x → s'.rest.info.get p = some x
  paths : ∀ p x, s.rest.paths.get p = some x → s'.rest.paths.get p = some x

/-- The nodes of the device path of a volume: its name if it has one, otherwise where it is in memory. -/
def volumeNodes (base : Nat) (v : VolumeRef) : List DevicePath.Spec.Node :=
  match v.ext with
  | some e => [⟨4, 7, leBytes 16 e.name⟩]
  | none => [⟨1, 3, leBytes 4 11 ++ leBytes 8 base ++ leBytes 8 ((base + v.length) % 2 ^ 64)⟩]

/-- The handle `h` stands for the volume at `base`: it has the device path of the volume and both protocols, and their interfaces belong to `base`. -/
structure Serves (m : Mem) (s : St (Rest β)) (h base : Nat) : Prop where
  path : ∃ p v, openVolume m base = .ok v ∧ lookup s.db h PATH = some p ∧ s.rest.paths.get p = some (DevicePath.Spec.bytes (volumeNodes base v))
  block : ∃ p, lookup s.db h BLOCK = some p ∧ s.rest.info.get p = some (.block, base)
  volume : ∃ p, lookup s.db h VOLUME = some p ∧ s.rest.info.get p = some (.volume, base)

theorem Kept.refl (s : St (Rest β)) : Kept s s := ⟨fun _ _ _ h => h, fun _ _ h => h, fun _ _ h => h⟩

theorem Kept.trans {a b c : St (Rest β)} (h1 : Kept a b) (h2 : Kept b c) : Kept a c :=
  ⟨fun h g i e => h2.interfaces h g i (h1.interfaces h g i e), fun p x e => h2.info p x (h1.info p x e), fun p x e => h2.paths p x (h1.paths p x e)⟩

theorem Serves.kept {m : Mem} {s s' : St (Rest β)} {h base : Nat} (hs : Serves m s h base) (hk : Kept s s') : Serves m s' h base := by
  obtain ⟨⟨p, v, h1, h2, h3⟩, ⟨q, h4, h5⟩, ⟨r, h6, h7⟩⟩ := hs
  exact ⟨⟨p, v, h1, hk.interfaces _ _ _ h2, hk.paths _ _ h3⟩, ⟨q, hk.interfaces _ _ _ h4, hk.info _ _ h5⟩, ⟨r, hk.interfaces _ _ _ h6, hk.info _ _ h7⟩⟩

/-! ### Lemmas -/

theorem signalAll_kept {w : World (Rest β)} (hg : Grows w) (quiet : Bool) : ∀ (l : List Nat) (s : St (Rest β)), Kept s (signalAll w quiet s l).2 := by
  intro l
  induction l with
  | nil => intro s; exact .refl s
  | cons e l ih =>
    intro s
    unfold signalAll
    refine Kept.trans ?_ (ih _)
    cases quiet with
    | true => exact ⟨fun _ _ _ h => h, (hg.queue s.rest e).1, (hg.queue s.rest e).2⟩
    | false => exact ⟨hg.interfaces s e, hg.info s e, hg.paths s e⟩

theorem signalAll_unused {w : World (Rest β)} {p : Nat} (hu : Unused w p) (quiet : Bool) : ∀ (l : List Nat) (s : St (Rest β)),
    Free s.rest p → Free (signalAll w quiet s l).2.rest p := by
  intro l
  induction l with
  | nil => intro s h; exact h
  | cons e l ih =>
    intro s h
    unfold signalAll
    refine ih _ ?_
    cases quiet with
    | true => exact hu.queue s.rest e h
    | false => exact hu.signal s e h

theorem coreInstall_unused {w : World (Rest β)} {p : Nat} (hu : Unused w p) {quiet : Bool} {s s' : St (Rest β)} {handle : Option Nat} {g i : Nat}
    {r : Outcome Err Nat} (he : coreInstall w quiet s handle g i = (r, s')) (h : Free s.rest p) : Free s'.rest p := by
  unfold coreInstall at he
  split at he
  · rename_i h0 ns db hi
    injection he with e1 e2
    subst e2
    exact signalAll_unused hu quiet (ns.map (·.event)) { s with db := db } h
  · injection he with e1 e2; subst e2; exact h
  · injection he with e1 e2; subst e2; exact h

/-- A successful installation adds its interface and keeps what is there. -/
theorem coreInstall_kept {w : World (Rest β)} (hg : Grows w) {quiet : Bool} {s s' : St (Rest β)} (hm : Made w.hash w.lim s.db) {handle : Option Nat}
    {g i h : Nat} (he : coreInstall w quiet s handle g i = (.ok h, s')) : Kept s s' ∧ lookup s'.db h g = some i := by
  have hok := (coreInstall_ok hm he).1
  unfold coreInstall at he
  split at he
  · rename_i h0 ns db hi
    simp only [Prod.mk.injEq, Outcome.ok.injEq] at he
    obtain ⟨rfl, rfl⟩ := he
    have h1 : (s.db.install w.hash w.lim handle g i).1 = .ok (h0, ns) := by rw [hi]
    have h2 : (s.db.install w.hash w.lim handle g i).2 = db := by rw [hi]
    have heff := install_effect hm.reachable h1
    rw [h2] at heff
    have hk := signalAll_kept hg quiet (ns.map (·.event)) { s with db := db }
    refine ⟨⟨fun h' g' i' hl => ?_, hk.info, hk.paths⟩, ?_⟩
    · simp only
      rw [unregister_all_lookup]
      refine hk.interfaces h' g' i' ?_
      simp only
      rw [(heff h' g').1]
      split
      · rename_i hc
        obtain ⟨rfl, rfl⟩ := hc
        rcases hok with ⟨_, _, hn⟩ | ⟨_, _, hn⟩
        · rw [hn] at hl; cases hl
        · rw [valid_of_lookup hl] at hn; cases hn
      · exact hl
    · simp only
      rw [unregister_all_lookup]
      refine hk.interfaces h0 g i ?_
      simp only
      rw [(heff h0 g).1]
      simp
  · cases he
  · cases he

theorem installOn_ok {w : World (Rest β)} {quiet : Bool} {s s' : St (Rest β)} {handle : Option Nat} {g i h : Nat}
    (he : installOn w quiet s handle g i = (.ok h, s')) : coreInstall w quiet s handle g i = (.ok h, s') := by
  unfold installOn at he
  split at he
  · rename_i h0 s0 hc; rw [hc]; injection he with e1 e2; injection e1 with e1; subst e1; subst e2; rfl
  · cases he
  · cases he

theorem guidPath_bytes (sub : UInt8) (name : Nat) : guidPath sub name = DevicePath.Spec.bytes [⟨4, sub, leBytes 16 name⟩] := by
  simp [guidPath, DevicePath.Spec.bytes, DevicePath.Spec.Node.bytes, leBytes]

theorem mmapPath_bytes (base size : Nat) :
    mmapPath base size = DevicePath.Spec.bytes [⟨1, 3, leBytes 4 11 ++ leBytes 8 base ++ leBytes 8 ((base + size) % 2 ^ 64)⟩] := by
  simp [mmapPath, DevicePath.Spec.bytes, DevicePath.Spec.Node.bytes, leBytes]

/-- The device path of a volume is the wire form of its nodes. -/
theorem volumePath_ok {dbg : Bool} {m : Mem} {base : Nat} {b : List UInt8} (h : volumePath dbg m base = .ok b) :
    ∃ v, openVolume m base = .ok v ∧ b = DevicePath.Spec.bytes (volumeNodes base v) := by
  unfold volumePath at h
  split at h
  · cases h
  · cases h
  · rename_i v hv
    refine ⟨v, hv, ?_⟩
    unfold VolumeRef.extHeader at h
    unfold volumeNodes
    cases hx : v.ext with
    | none =>
      rw [hx] at h
      simp only at h
      split at h
      · cases h
      · injection h with h; rw [← h, mmapPath_bytes]
    | some e =>
      rw [hx] at h
      simp only at h
      by_cases hs : e.size < 20
      · rw [if_pos hs] at h; cases h
      · rw [if_neg hs] at h
        injection h with h; rw [← h, guidPath_bytes]

/-! ### Installing one volume -/

/-- The addresses of an installation. -/
def Boxes.all (b : Boxes) : List Nat := [b.path, b.block, b.volume]

/-- Addresses that the allocator returns one after the other: all different, and nobody uses them yet. -/
def Fresh (w : World (Rest β)) (s : St (Rest β)) (l : List Nat) : Prop := l.Nodup ∧ ∀ p ∈ l, Free s.rest p ∧ Unused w p

theorem installOn_unused {w : World (Rest β)} {p : Nat} (hu : Unused w p) {quiet : Bool} {s s' : St (Rest β)} {handle : Option Nat} {g i : Nat}
    {r : Outcome Status Nat} (he : installOn w quiet s handle g i = (r, s')) (h : Free s.rest p) : Free s'.rest p := by
  cases hc : coreInstall w quiet s handle g i with
  | mk r0 s0 =>
    have : s0 = s' := by
      unfold installOn at he
      rw [hc] at he
      cases r0 <;> (injection he)
    rw [← this]
    exact coreInstall_unused hu hc h

/-- An installation uses no other addresses. -/
theorem installVolume_unused {dbg : Bool} {w : World (Rest β)} {p : Nat} (hu : Unused w p) {quiet : Bool} {m : Mem} {s s' : St (Rest β)} {base : Nat}
    {b : Boxes} {r : Outcome Status Nat} (hp : p ∉ b.all) (he : installVolume dbg w quiet m s base b = (r, s')) (h : Free s.rest p) : Free s'.rest p := by
  simp only [Boxes.all, List.mem_cons, List.not_mem_nil, or_false, not_or] at hp
  have s1 : ∀ (s s' : St (Rest β)) (r : Outcome Status Nat), installPath dbg w quiet m s base b.path = (r, s') → Free s.rest p → Free s'.rest p := by
    intro s s' r he h
    unfold installPath at he
    split at he
    · injection he with _ e; rw [← e]; exact h
    · injection he with _ e; rw [← e]; exact h
    · exact installOn_unused hu he ⟨h.1, by simp only; rw [BMap.get_insert, if_neg hp.1]; exact h.2⟩
  have s2 : ∀ (k : Kind) (q : Nat), p ≠ q → ∀ (s s' : St (Rest β)) (h0 : Nat) (r : Outcome Status Nat), installKind w quiet s h0 k base q = (r, s') →
      Free s.rest p → Free s'.rest p := by
    intro k q hq s s' h0 r he h
    unfold installKind at he
    exact installOn_unused hu he ⟨by simp only; rw [BMap.get_insert, if_neg hq]; exact h.1, h.2⟩
  cases e1 : installPath dbg w quiet m s base b.path with
  | mk r1 t1 =>
    have f1 := s1 _ _ _ e1 h
    unfold installVolume at he
    rw [e1] at he
    cases r1 with
    | err e => injection he with _ e; rw [← e]; exact f1
    | panic => injection he with _ e; rw [← e]; exact f1
    | ok h1 =>
      simp only at he
      cases e2 : installKind w quiet t1 h1 .block base b.block with
      | mk r2 t2 =>
        have f2 := s2 _ _ hp.2.1 _ _ _ _ e2 f1
        rw [e2] at he
        cases r2 with
        | err e => injection he with _ e; rw [← e]; exact f2
        | panic => injection he with _ e; rw [← e]; exact f2
        | ok h2 =>
          simp only at he
          cases e3 : installKind w quiet t2 h1 .volume base b.volume with
          | mk r3 t3 =>
            have f3 := s2 _ _ hp.2.2 _ _ _ _ e3 f2
            rw [e3] at he
            cases r3 with
            | err e => injection he with _ e; rw [← e]; exact f3
            | panic => injection he with _ e; rw [← e]; exact f3
            | ok h3 => injection he with _ e; rw [← e]; exact f3

/-- A new device path or volume keeps what is there. -/
theorem kept_path (s : St (Rest β)) {p : Nat} (x : List UInt8) (h : s.rest.paths.get p = none) :
    Kept s { s with rest := { s.rest with paths := s.rest.paths.insert p x } } := by
  refine ⟨fun _ _ _ h => h, fun _ _ h => h, fun q y hq => ?_⟩
  simp only
  rw [BMap.get_insert, if_neg]
  · exact hq
  · rintro rfl; rw [h] at hq; cases hq

theorem kept_info (s : St (Rest β)) {p : Nat} (x : Kind × Nat) (h : s.rest.info.get p = none) :
    Kept s { s with rest := { s.rest with info := s.rest.info.insert p x } } := by
  refine ⟨fun _ _ _ h => h, fun q y hq => ?_, fun _ _ h => h⟩
  simp only
  rw [BMap.get_insert, if_neg]
  · exact hq
  · rintro rfl; rw [h] at hq; cases hq

/-- C84, on success: the new handle stands for the volume, and whatever was installed before is still there. -/
theorem install_serves {dbg : Bool} {w : World (Rest β)} (hw : Honest w) (hg : Grows w) {quiet : Bool} {m : Mem} {s s' : St (Rest β)}
    (hm : Made w.hash w.lim s.db) {base h : Nat} {b : Boxes} (hf : Fresh w s b.all)
    (he : installVolume dbg w quiet m s base b = (.ok h, s')) : Serves m s' h base ∧ Kept s s' ∧ s.db.valid h = false ∧ h ≠ 0 ∧ Made w.hash w.lim s'.db := by
  have hf' : b.block ≠ b.volume ∧ b.block ≠ b.path ∧ b.volume ≠ b.path := by
    have := hf.1
    simp only [Boxes.all, List.nodup_cons, List.mem_cons, List.not_mem_nil, or_false, not_or] at this
    exact ⟨this.2.1, Ne.symm this.1.1, Ne.symm this.1.2⟩
  have fp := hf.2 b.path (by simp [Boxes.all])
  have fb := hf.2 b.block (by simp [Boxes.all])
  have fv := hf.2 b.volume (by simp [Boxes.all])
  unfold installVolume at he
  split at he
  · rename_i h1 s1 e1
    split at he
    · rename_i h2 s2 e2
      split at he
      · rename_i h3 s3 e3
        simp only [Prod.mk.injEq, Outcome.ok.injEq] at he
        obtain ⟨rfl, rfl⟩ := he
        -- the device path
        unfold installPath at e1
        split at e1
        · cases e1
        · cases e1
        · rename_i bytes hv
          obtain ⟨v, hopen, hbytes⟩ := volumePath_ok hv
          have c1 := installOn_ok e1
          have k0 := kept_path s bytes fp.1.2
          have hm0 : Made w.hash w.lim ({ s with rest := { s.rest with paths := s.rest.paths.insert b.path bytes } } : St (Rest β)).db := hm
          obtain ⟨k1, l1⟩ := coreInstall_kept hg hm0 c1
          have hm1 := (coreInstall_ok hm0 c1).2.1 hw
          have u1 : Free s1.rest b.block := coreInstall_unused fb.2 c1 ⟨fb.1.1, by simp only; rw [BMap.get_insert, if_neg hf'.2.1]; exact fb.1.2⟩
          have v1 : Free s1.rest b.volume := coreInstall_unused fv.2 c1 ⟨fv.1.1, by simp only; rw [BMap.get_insert, if_neg hf'.2.2]; exact fv.1.2⟩
          have p1 : s1.rest.paths.get b.path = some bytes := k1.paths _ _ (by simp [BMap.get_insert])
          -- the block protocol
          have c2 := installOn_ok e2
          have k2 := kept_info s1 (.block, base) u1.1
          have hm1' : Made w.hash w.lim ({ s1 with rest := { s1.rest with info := s1.rest.info.insert b.block (.block, base) } } : St (Rest β)).db := hm1
          obtain ⟨k3, l2⟩ := coreInstall_kept hg hm1' c2
          have hm2 := (coreInstall_ok hm1' c2).2.1 hw
          have e21 : h2 = h1 := by
            rcases (coreInstall_ok hm1' c2).1 with ⟨e, _⟩ | ⟨e, _⟩
            · injection e with e; exact e.symm
            · cases e
          have v2 : Free s2.rest b.volume := coreInstall_unused fv.2 c2
            ⟨by simp only; rw [BMap.get_insert, if_neg (Ne.symm hf'.1)]; exact v1.1, v1.2⟩
          have i2 : s2.rest.info.get b.block = some (.block, base) := k3.info _ _ (by simp [BMap.get_insert])
          -- the volume protocol
          have c3 := installOn_ok e3
          have k4 := kept_info s2 (.volume, base) v2.1
          have hm2' : Made w.hash w.lim ({ s2 with rest := { s2.rest with info := s2.rest.info.insert b.volume (.volume, base) } } : St (Rest β)).db := hm2
          obtain ⟨k5, l3⟩ := coreInstall_kept hg hm2' c3
          have hm3 := (coreInstall_ok hm2' c3).2.1 hw
          have e31 : h3 = h1 := by
            rcases (coreInstall_ok hm2' c3).1 with ⟨e, _⟩ | ⟨e, _⟩
            · injection e with e; exact e.symm
            · cases e
          have i3 : s3.rest.info.get b.volume = some (.volume, base) := k5.info _ _ (by simp [BMap.get_insert])
          have k13 : Kept s1 s3 := k2.trans (k3.trans (k4.trans k5))
          have k23 : Kept s2 s3 := k4.trans k5
          subst e21
          subst e31
          refine ⟨⟨⟨b.path, v, hopen, k13.interfaces _ _ _ l1, by rw [← hbytes]; exact k13.paths _ _ p1⟩,
            ⟨b.block, k23.interfaces _ _ _ l2, k23.info _ _ i2⟩, ⟨b.volume, l3, i3⟩⟩, k0.trans (k1.trans k13), ?_, ?_, hm3⟩
          · rcases (coreInstall_ok hm0 c1).1 with ⟨e, _⟩ | ⟨_, _, e⟩
            · cases e
            · exact e
          · rcases (coreInstall_ok hm0 c1).1 with ⟨e, _⟩ | ⟨_, e, _⟩
            · cases e
            · exact e
      · rename_i hx; exact absurd he (hx _ _)
    · rename_i hx; exact absurd he (hx _ _)
  · rename_i hx; exact absurd he (hx _ _)

/-- C84: a damaged volume changes nothing, and the caller learns why. -/
theorem install_refused {dbg : Bool} {w : World (Rest β)} {quiet : Bool} {m : Mem} {s : St (Rest β)} {base : Nat} {b : Boxes} {e : FfsError}
    (h : openVolume m base = .err e) : installVolume dbg w quiet m s base b = (.err (.of e), s) := by
  have : volumePath dbg m base = .err (.of e) := by unfold volumePath; rw [h]
  simp [installVolume, installPath, this]

/-- Of a volume that can be opened and whose end does not lie beyond the address space there is a device path. -/
theorem volumePath_of_open {dbg : Bool} {m : Mem} {base : Nat} {v : VolumeRef} (h : openVolume m base = .ok v) (hb : base + v.length < 2 ^ 64)
    (hx : ∀ e, v.ext = some e → 20 ≤ e.size) : volumePath dbg m base = .ok (DevicePath.Spec.bytes (volumeNodes base v)) := by
  unfold volumePath
  rw [h]
  simp only
  unfold VolumeRef.extHeader volumeNodes
  cases he : v.ext with
  | none =>
    simp only
    rw [if_neg (by simp; intro _; omega), mmapPath_bytes]
  | some e =>
    simp only
    rw [if_neg (by have := hx e he; omega)]
    simp only
    rw [guidPath_bytes]

theorem installOn_eq {w : World (Rest β)} {quiet : Bool} {s s' : St (Rest β)} {handle : Option Nat} {g i h : Nat}
    (he : coreInstall w quiet s handle g i = (.ok h, s')) : installOn w quiet s handle g i = (.ok h, s') := by
  unfold installOn; rw [he]

/-- C84, completely: a volume that can be opened is installed, unless the core finds no number for a handle that is not taken and panics. One new handle
appears, with exactly the three interfaces; no interface of any other handle changes. Here the functions of events leave interfaces alone. -/
theorem install_exact {dbg : Bool} {w : World (Rest β)} (hw : Honest w) (hk : Keeps w) (hg : Grows w) {quiet : Bool} {m : Mem} {s : St (Rest β)}
    (hm : Made w.hash w.lim s.db) {base : Nat} {b : Boxes} (hf : Fresh w s b.all) {v : VolumeRef} (ho : openVolume m base = .ok v)
    (hb : base + v.length < 2 ^ 64) (hx : ∀ e, v.ext = some e → 20 ≤ e.size) :
    (∃ h s', installVolume dbg w quiet m s base b = (.ok h, s') ∧ Serves m s' h base ∧ s.db.valid h = false ∧
      ∀ h' g', lookup s'.db h' g' =
        if h' = h then (if g' = PATH then some b.path else if g' = BLOCK then some b.block else if g' = VOLUME then some b.volume else none)
        else lookup s.db h' g') ∨
    (∃ s', installVolume dbg w quiet m s base b = (.panic, s') ∧ s'.db = s.db) := by
  have hp := volumePath_of_open (dbg := dbg) ho hb hx
  have hne : PATH ≠ BLOCK ∧ PATH ≠ VOLUME ∧ BLOCK ≠ VOLUME := by unfold PATH BLOCK VOLUME; decide
  generalize hs0 : ({ s with rest := { s.rest with paths := s.rest.paths.insert b.path (DevicePath.Spec.bytes (volumeNodes base v)) } } : St (Rest β)) = s0
  have hdb : s0.db = s.db := by rw [← hs0]
  have hm0 : Made w.hash w.lim s0.db := by rw [hdb]; exact hm
  cases hc : coreInstall w quiet s0 none PATH b.path with
  | mk r s1 =>
    cases r with
    | err e => exact absurd ((coreInstall_fail hm0 hc (fun h => by simp)).2.2 rfl) (by simp)
    | panic =>
      right
      have h1 := (coreInstall_fail hm0 hc (fun h => by simp)).1
      refine ⟨s1, ?_, by rw [h1, hdb]⟩
      have : installPath dbg w quiet m s base b.path = (.panic, s1) := by
        unfold installPath
        rw [hp]
        simp only
        rw [hs0]
        unfold installOn
        rw [hc]
      unfold installVolume
      rw [this]
    | ok h =>
      left
      have hnew : s.db.valid h = false := by
        rcases (coreInstall_ok hm0 hc).1 with ⟨e, _⟩ | ⟨_, _, e⟩
        · cases e
        · rw [hdb] at e; exact e
      have hm1 := (coreInstall_ok hm0 hc).2.1 hw
      have l1 := (coreInstall_ok hm0 hc).2.2.1 hk
      rw [hdb] at l1
      have hnone : ∀ g', lookup s.db h g' = none := by
        intro g'
        cases hl : lookup s.db h g' with
        | none => rfl
        | some i => rw [valid_of_lookup hl] at hnew; cases hnew
      generalize ht1 : ({ s1 with rest := { s1.rest with info := s1.rest.info.insert b.block (.block, base) } } : St (Rest β)) = t1
      have hdb1 : t1.db = s1.db := by rw [← ht1]
      have hmt1 : Made w.hash w.lim t1.db := by rw [hdb1]; exact hm1
      have hv1 : t1.db.valid h = true := by rw [hdb1]; exact valid_of_lookup (g := PATH) (i := b.path) (by rw [l1]; simp)
      have hn1 : lookup t1.db h BLOCK = none := by
        rw [hdb1, l1, if_neg (fun e => hne.1 e.2.symm)]; exact hnone _
      obtain ⟨s2, c2⟩ := coreInstall_succeeds quiet hmt1 b.block hv1 hn1
      have hm2 := (coreInstall_ok hmt1 c2).2.1 hw
      have l2 := (coreInstall_ok hmt1 c2).2.2.1 hk
      rw [hdb1] at l2
      generalize ht2 : ({ s2 with rest := { s2.rest with info := s2.rest.info.insert b.volume (.volume, base) } } : St (Rest β)) = t2
      have hdb2 : t2.db = s2.db := by rw [← ht2]
      have hmt2 : Made w.hash w.lim t2.db := by rw [hdb2]; exact hm2
      have hv2 : t2.db.valid h = true := by rw [hdb2]; exact valid_of_lookup (g := BLOCK) (i := b.block) (by rw [l2]; simp)
      have hn2 : lookup t2.db h VOLUME = none := by
        rw [hdb2, l2, if_neg (fun e => hne.2.2 e.2.symm), l1, if_neg (fun e => hne.2.1 e.2.symm)]; exact hnone _
      obtain ⟨s3, c3⟩ := coreInstall_succeeds quiet hmt2 b.volume hv2 hn2
      have l3 := (coreInstall_ok hmt2 c3).2.2.1 hk
      rw [hdb2] at l3
      have he : installVolume dbg w quiet m s base b = (.ok h, s3) := by
        have e1 : installPath dbg w quiet m s base b.path = (.ok h, s1) := by
          unfold installPath
          rw [hp]
          simp only
          rw [hs0]
          exact installOn_eq hc
        have e2 : installKind w quiet s1 h .block base b.block = (.ok h, s2) := by
          unfold installKind
          rw [ht1]
          exact installOn_eq c2
        have e3 : installKind w quiet s2 h .volume base b.volume = (.ok h, s3) := by
          unfold installKind
          rw [ht2]
          exact installOn_eq c3
        unfold installVolume
        rw [e1]
        simp only
        rw [e2]
        simp only
        rw [e3]
      refine ⟨h, s3, he, (install_serves hw hg hm hf he).1, hnew, fun h' g' => ?_⟩
      rw [l3, l2, l1]
      by_cases hh : h' = h
      · subst hh
        rw [hnone]
        by_cases g1 : g' = PATH
        · subst g1; simp [hne]
        · by_cases g2 : g' = BLOCK
          · subst g2; simp [hne, Ne.symm hne.1]
          · by_cases g3 : g' = VOLUME
            · subst g3; simp [Ne.symm hne.2.1, Ne.symm hne.2.2]
            · simp [g1, g2, g3]
      · simp [hh]

/-! ### What the interfaces answer -/

/-- C84: the block protocol found on the handle says where the volume is, and both protocols report its attributes. -/
theorem serves_answers {m : Mem} {s : St (Rest β)} {h base : Nat} (hs : Serves m s h base) : ∃ p q v, lookup s.db h BLOCK = some p ∧
    lookup s.db h VOLUME = some q ∧ openVolume m base = .ok v ∧ physicalAddress s.rest.info p true = (.success, some base) ∧
    blockAttributes m s.rest.info p true = (.success, some v.attributes) ∧ volumeAttributes m s.rest.info q true = (.success, some v.attributes) := by
  obtain ⟨⟨_, v, h1, _, _⟩, ⟨p, h4, h5⟩, ⟨q, h6, h7⟩⟩ := hs
  refine ⟨p, q, v, h4, h6, h1, ?_, ?_, ?_⟩
  · simp [physicalAddress, h5]
  · simp [blockAttributes, volumeOf, h5, h1]
  · simp [volumeAttributes, volumeOf, h7, h1]

/-- C84: the device path of a file is that of its volume followed by the name of the file. `at_` is the memory behind pointers: where a device path was
allocated there are its bytes and anything after them. -/
theorem file_path {m : Mem} {s : St (Rest β)} {h base : Nat} (hs : Serves m s h base) {at_ : Nat → List UInt8}
    (hat : ∀ p bytes, s.rest.paths.get p = some bytes → ∃ more, at_ p = bytes ++ more) {fuel : Nat} (hf : 1 < fuel) (name : Nat) :
    ∃ v, openVolume m base = .ok v ∧
      filePath s.db at_ fuel h name = .ok (DevicePath.Spec.bytes (volumeNodes base v ++ [⟨4, 6, leBytes 16 name⟩])) := by
  obtain ⟨p, v, h1, h2, h3⟩ := hs.path
  refine ⟨v, h1, ?_⟩
  obtain ⟨more, hmore⟩ := hat p _ h3
  have hgi : s.db.getInterface h PATH = .ok p := by
    rw [getInterface_eq, valid_of_lookup h2, h2]; rfl
  have hwf : (∀ n ∈ volumeNodes base v, n.Wf) ∧ DevicePath.Spec.Single (volumeNodes base v) ∧ (volumeNodes base v).length = 1 := by
    unfold volumeNodes
    cases v.ext with
    | none => simp [DevicePath.Spec.Node.Wf, DevicePath.Spec.Single]
    | some e => simp [DevicePath.Spec.Node.Wf, DevicePath.Spec.Single]
  have hc := DevicePath.concat_spec (volumeNodes base v) [⟨4, 6, leBytes 16 name⟩] hwf.1
    (by simp [DevicePath.Spec.Node.Wf]) hwf.2.1 (by simp [DevicePath.Spec.Single]) more [] fuel (by omega) (by simpa using hf)
  unfold filePath
  rw [hgi]
  simp only
  rw [hmore, guidPath_bytes]
  rw [List.append_nil] at hc
  rw [hc]

/-- Different files of a volume have different device paths. -/
theorem file_paths_differ (ns : List DevicePath.Spec.Node) (a b : Nat) (ha : a < 2 ^ 128) (hb : b < 2 ^ 128)
    (h : DevicePath.Spec.bytes (ns ++ [⟨4, 6, leBytes 16 a⟩]) = DevicePath.Spec.bytes (ns ++ [⟨4, 6, leBytes 16 b⟩])) : a = b := by
  simp only [DevicePath.Spec.bytes, List.flatMap_append, List.append_assoc, List.append_cancel_left_eq, List.flatMap_cons, List.flatMap_nil,
    DevicePath.Spec.Node.bytes, List.cons_append, leBytes_length, List.append_nil, List.cons.injEq, true_and] at h
  have h' := congrArg leVal (List.append_cancel_right h)
  rwa [leVal_leBytes_of_lt (by omega), leVal_leBytes_of_lt (by omega)] at h'

/-! ### The volumes of the HOB list -/

theorem installOn_kept {w : World (Rest β)} (hg : Grows w) {quiet : Bool} {s s' : St (Rest β)} (hm : Made w.hash w.lim s.db) {handle : Option Nat} {g i : Nat}
    {r : Outcome Status Nat} (he : installOn w quiet s handle g i = (r, s')) : Kept s s' ∧ (Honest w → Made w.hash w.lim s'.db) := by
  unfold installOn at he
  cases hc : coreInstall w quiet s handle g i with
  | mk r0 s0 =>
    rw [hc] at he
    cases r0 with
    | ok h =>
      injection he with _ e
      rw [← e]
      exact ⟨(coreInstall_kept hg hm hc).1, (coreInstall_ok hm hc).2.1⟩
    | err e =>
      injection he with _ e
      rw [← e, (coreInstall_fail hm hc (fun h => by simp)).1]
      exact ⟨.refl s, fun _ => hm⟩
    | panic =>
      injection he with _ e
      rw [← e, (coreInstall_fail hm hc (fun h => by simp)).1]
      exact ⟨.refl s, fun _ => hm⟩

/-- Whether it succeeds or not, an installation takes nothing away. -/
theorem install_keeps {dbg : Bool} {w : World (Rest β)} (hw : Honest w) (hg : Grows w) {quiet : Bool} {m : Mem} {s s' : St (Rest β)}
    (hm : Made w.hash w.lim s.db) {base : Nat} {b : Boxes} (hf : Fresh w s b.all) {r : Outcome Status Nat}
    (he : installVolume dbg w quiet m s base b = (r, s')) : Kept s s' ∧ Made w.hash w.lim s'.db := by
  have hf' : b.block ≠ b.volume ∧ b.block ≠ b.path ∧ b.volume ≠ b.path := by
    have := hf.1
    simp only [Boxes.all, List.nodup_cons, List.mem_cons, List.not_mem_nil, or_false, not_or] at this
    exact ⟨this.2.1, Ne.symm this.1.1, Ne.symm this.1.2⟩
  have fp := hf.2 b.path (by simp [Boxes.all])
  have fb := hf.2 b.block (by simp [Boxes.all])
  have fv := hf.2 b.volume (by simp [Boxes.all])
  have s1 : ∀ (s s' : St (Rest β)) (r : Outcome Status Nat), Made w.hash w.lim s.db → Free s.rest b.path → installPath dbg w quiet m s base b.path = (r, s') →
      (Kept s s' ∧ Made w.hash w.lim s'.db) ∧ ∀ p, p ≠ b.path → Unused w p → Free s.rest p → Free s'.rest p := by
    intro s s' r hm h he
    unfold installPath at he
    split at he
    · injection he with _ e; rw [← e]; exact ⟨⟨.refl s, hm⟩, fun _ _ _ h => h⟩
    · injection he with _ e; rw [← e]; exact ⟨⟨.refl s, hm⟩, fun _ _ _ h => h⟩
    · rename_i bytes _
      have k := installOn_kept hg (by exact hm) he
      exact ⟨⟨(kept_path s bytes h.2).trans k.1, k.2 hw⟩,
        fun p hp hu hfr => installOn_unused hu he ⟨hfr.1, by simp only; rw [BMap.get_insert, if_neg hp]; exact hfr.2⟩⟩
  have s2 : ∀ (k : Kind) (q : Nat) (s s' : St (Rest β)) (h0 : Nat) (r : Outcome Status Nat), Made w.hash w.lim s.db → Free s.rest q →
      installKind w quiet s h0 k base q = (r, s') →
      (Kept s s' ∧ Made w.hash w.lim s'.db) ∧ ∀ p, p ≠ q → Unused w p → Free s.rest p → Free s'.rest p := by
    intro k q s s' h0 r hm h he
    unfold installKind at he
    have kk := installOn_kept hg (by exact hm) he
    exact ⟨⟨(kept_info s (k, base) h.1).trans kk.1, kk.2 hw⟩,
      fun p hp hu hfr => installOn_unused hu he ⟨by simp only; rw [BMap.get_insert, if_neg hp]; exact hfr.1, hfr.2⟩⟩
  cases e1 : installPath dbg w quiet m s base b.path with
  | mk r1 t1 =>
    obtain ⟨k1, f1⟩ := s1 _ _ _ hm fp.1 e1
    have fb1 := f1 _ hf'.2.1 fb.2 fb.1
    have fv1 := f1 _ hf'.2.2 fv.2 fv.1
    unfold installVolume at he
    rw [e1] at he
    cases r1 with
    | err e => injection he with _ e; rw [← e]; exact k1
    | panic => injection he with _ e; rw [← e]; exact k1
    | ok h1 =>
      simp only at he
      cases e2 : installKind w quiet t1 h1 .block base b.block with
      | mk r2 t2 =>
        obtain ⟨k2, f2⟩ := s2 _ _ _ _ _ _ k1.2 fb1 e2
        have fv2 := f2 _ (Ne.symm hf'.1) fv.2 fv1
        rw [e2] at he
        cases r2 with
        | err e => injection he with _ e; rw [← e]; exact ⟨k1.1.trans k2.1, k2.2⟩
        | panic => injection he with _ e; rw [← e]; exact ⟨k1.1.trans k2.1, k2.2⟩
        | ok h2 =>
          simp only at he
          cases e3 : installKind w quiet t2 h1 .volume base b.volume with
          | mk r3 t3 =>
            obtain ⟨k3, _⟩ := s2 _ _ _ _ _ _ k2.2 fv2 e3
            rw [e3] at he
            cases r3 with
            | err e => injection he with _ e; rw [← e]; exact ⟨(k1.1.trans k2.1).trans k3.1, k3.2⟩
            | panic => injection he with _ e; rw [← e]; exact ⟨(k1.1.trans k2.1).trans k3.1, k3.2⟩
            | ok h3 => injection he with _ e; rw [← e]; exact ⟨(k1.1.trans k2.1).trans k3.1, k3.2⟩

/-- The volume a HOB describes. -/
def goodHob (m : Mem) (x : Nat × Nat × Boxes) : Prop := ∃ v, VolumeRef.new (bytesAt m x.1 x.2.1) = .ok v

/-- C84: the volumes of the HOB list are installed one after the other; each one that is installed has a new handle that stands for it. The call succeeds
if all of them are, and otherwise stops at the first that is damaged or cannot be installed. Nothing that was there before is lost. -/
theorem hobs_installed {dbg : Bool} {w : World (Rest β)} (hw : Honest w) (hg : Grows w) {quiet : Bool} {m : Mem} :
    ∀ (l : List (Nat × Nat × Boxes)) (s s' : St (Rest β)) (r : Outcome Status Unit), Made w.hash w.lim s.db →
      Fresh w s (l.flatMap fun x => x.2.2.all) → installHobs dbg w quiet m l s = (r, s') →
      Kept s s' ∧ Made w.hash w.lim s'.db ∧ ∃ done rest, l = done ++ rest ∧
        (∀ x ∈ done, goodHob m x ∧ ∃ h, Serves m s' h x.1 ∧ s.db.valid h = false) ∧
        (r = .ok () ↔ rest = []) ∧
        (∀ x rest', rest = x :: rest' → ¬ goodHob m x ∨ ∃ t t' r', Kept s t ∧ installVolume dbg w quiet m t x.1 x.2.2 = (r', t') ∧ ∀ h, r' ≠ .ok h) := by
  intro l
  induction l with
  | nil =>
    intro s s' r hm _ he
    unfold installHobs at he
    injection he with e1 e2
    subst e1; subst e2
    exact ⟨.refl s, hm, [], [], rfl, by simp, by simp, by simp⟩
  | cons x l ih =>
    intro s s' r hm hf he
    obtain ⟨base, len, b⟩ := x
    rw [List.flatMap_cons] at hf
    have hfb : Fresh w s b.all := ⟨(List.nodup_append.1 hf.1).1, fun p hp => hf.2 p (List.mem_append_left _ hp)⟩
    unfold installHobs at he
    cases hv : VolumeRef.new (bytesAt m base len) with
    | err e =>
      rw [hv] at he
      injection he with e1 e2
      subst e1; subst e2
      refine ⟨.refl s, hm, [], _, rfl, by simp, by simp, fun x rest' hx => .inl ?_⟩
      rintro ⟨v, h⟩
      injection hx with hx _
      subst hx
      rw [hv] at h; cases h
    | panic =>
      rw [hv] at he
      injection he with e1 e2
      subst e1; subst e2
      refine ⟨.refl s, hm, [], _, rfl, by simp, by simp, fun x rest' hx => .inl ?_⟩
      rintro ⟨v, h⟩
      injection hx with hx _
      subst hx
      rw [hv] at h; cases h
    | ok v =>
      rw [hv] at he
      simp only at he
      cases hi : installVolume dbg w quiet m s base b with
      | mk r1 s1 =>
        rw [hi] at he
        obtain ⟨k1, m1⟩ := install_keeps hw hg hm hfb hi
        cases r1 with
        | err e =>
          injection he with e1 e2
          subst e1; subst e2
          refine ⟨k1, m1, [], _, rfl, by simp, by simp, fun x rest' hx => .inr ⟨s, s1, .err e, .refl s, ?_, fun h => ?_⟩⟩
          · injection hx with hx _; subst hx; exact hi
          · simp
        | panic =>
          injection he with e1 e2
          subst e1; subst e2
          refine ⟨k1, m1, [], _, rfl, by simp, by simp, fun x rest' hx => .inr ⟨s, s1, .panic, .refl s, ?_, fun h => ?_⟩⟩
          · injection hx with hx _; subst hx; exact hi
          · simp
        | ok h1 =>
          simp only at he
          obtain ⟨hsv, _, hnew, _, _⟩ := install_serves hw hg hm hfb hi
          have hfl : Fresh w s1 (l.flatMap fun x => x.2.2.all) := by
            have hn := List.nodup_append.1 hf.1
            refine ⟨hn.2.1, fun p hp => ?_⟩
            have hh := hf.2 p (List.mem_append_right _ hp)
            exact ⟨installVolume_unused hh.2 (fun hpb => hn.2.2 p hpb p hp rfl) hi hh.1, hh.2⟩
          obtain ⟨k2, m2, done, rest, e1, e2, e3, e4⟩ := ih s1 s' r m1 hfl he
          refine ⟨k1.trans k2, m2, (base, len, b) :: done, rest, by rw [e1]; rfl, fun y hy => ?_, e3, fun x rest' hx => ?_⟩
          · rcases List.mem_cons.1 hy with rfl | hy
            · exact ⟨⟨v, hv⟩, h1, hsv.kept k2, hnew⟩
            · obtain ⟨g1, h, g2, g3⟩ := e2 y hy
              refine ⟨g1, h, g2, ?_⟩
              cases hvd : s.db.valid h with
              | false => rfl
              | true =>
                obtain ⟨g, i, hl⟩ := (valid_iff_protocol hm.reachable h).1 hvd
                rw [valid_of_lookup (k1.interfaces _ _ _ hl)] at g3
                cases g3
          · rcases e4 x rest' hx with h | ⟨t, t', r', g1, g2, g3⟩
            · exact .inl h
            · exact .inr ⟨t, t', r', k1.trans g1, g2, g3⟩

/-- Finding: one damaged volume in the HOB list keeps the volumes after it from being installed. -/
theorem damaged_hob_stops {dbg : Bool} {w : World (Rest β)} {quiet : Bool} {m : Mem} {x : Nat × Nat × Boxes} {e : FfsError}
    (h : VolumeRef.new (bytesAt m x.1 x.2.1) = .err e) (l : List (Nat × Nat × Boxes)) (s : St (Rest β)) :
    installHobs dbg w quiet m (x :: l) s = (.err (.of e), s) := by
  obtain ⟨base, len, b⟩ := x
  unfold installHobs
  rw [h]

/-- Finding: without a name, the device path ends at the first address behind the volume (EDK II and the UEFI specification name the last address in it). -/
theorem mmap_end_behind {base : Nat} {v : VolumeRef} (hx : v.ext = none) (hb : base + v.length < 2 ^ 64) :
    ∃ n, volumeNodes base v = [n] ∧ leVal (n.data.drop 12) = base + v.length := by
  refine ⟨_, by unfold volumeNodes; rw [hx], ?_⟩
  simp only
  rw [List.drop_append_of_le_length (by simp), List.drop_of_length_le (by simp), List.nil_append, Nat.mod_eq_of_lt hb]
  exact leVal_leBytes_of_lt (by omega)

end Verif.Fv
