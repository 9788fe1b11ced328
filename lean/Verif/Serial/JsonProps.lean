import Verif.Serial.HexProps
/-!
What the JSON of a HOB keeps.
-/
namespace Verif.Serial

/-- The numbers fit the fields they are in. -/
def HobSer.Fits : HobSer → Prop
  | .handoff v t b ft fb e => v < 2 ^ 32 ∧ t < 2 ^ 64 ∧ b < 2 ^ 64 ∧ ft < 2 ^ 64 ∧ fb < 2 ^ 64 ∧ e < 2 ^ 64
  | .alloc d => d.base < 2 ^ 64 ∧ d.length < 2 ^ 64 ∧ d.type < 2 ^ 32
  | .resource d => d.type < 2 ^ 32 ∧ d.attr < 2 ^ 32 ∧ d.start < 2 ^ 64 ∧ d.length < 2 ^ 64
  | .resource2 d a => d.type < 2 ^ 32 ∧ d.attr < 2 ^ 32 ∧ d.start < 2 ^ 64 ∧ d.length < 2 ^ 64 ∧ a < 2 ^ 64
  | .guid _ => True
  | .fv b n => b < 2 ^ 64 ∧ n < 2 ^ 64
  | .cpu m i => m < 2 ^ 8 ∧ i < 2 ^ 8
  | .unknown => True

theorem asHex_fits {bits n : Nat} (h : n < 2 ^ bits) : asHex bits (.str (hexString n)) = some n := by
  show parseHexString bits (hexString n) = some n
  rw [hex_round_trip, if_pos h]

theorem asNum_fits {bits n : Nat} (h : n < 2 ^ bits) : asNum bits (.num n) = some n := if_pos h

theorem field_cons (k : String) (j : Json) (fs : List (String × Json)) (h : ∀ f ∈ fs, f.1 ≠ k) : field ((k, j) :: fs) k = some j := by
  unfold field
  rw [List.filter_cons_of_pos (by simp), List.filter_eq_nil_iff.2 (fun f hf => by simpa using h f hf)]

theorem field_skip (k k' : String) (j : Json) (fs : List (String × Json)) (h : k' ≠ k) : field ((k', j) :: fs) k = field fs k := by
  unfold field
  rw [List.filter_cons_of_neg (by simpa using h)]

theorem allocOf_fields {d : AllocSer} (h1 : d.base < 2 ^ 64) (h2 : d.length < 2 ^ 64) (h3 : d.type < 2 ^ 32) : allocOf d.fields = some d := by
  have e1 : field d.fields "name" = some (.str d.name) := field_cons _ _ _ (by simp)
  have e2 : field d.fields "memory_base_address" = some (.str (hexString d.base)) := by
    unfold AllocSer.fields
    rw [field_skip _ _ _ _ (by simp)]
    exact field_cons _ _ _ (by simp)
  have e3 : field d.fields "memory_length" = some (.num d.length) := by
    unfold AllocSer.fields
    rw [field_skip _ _ _ _ (by simp), field_skip _ _ _ _ (by simp)]
    exact field_cons _ _ _ (by simp)
  have e4 : field d.fields "memory_type" = some (.num d.type) := by
    unfold AllocSer.fields
    rw [field_skip _ _ _ _ (by simp), field_skip _ _ _ _ (by simp), field_skip _ _ _ _ (by simp)]
    exact field_cons _ _ _ (by simp)
  unfold allocOf
  rw [e1, e2, e3, e4]
  simp only [Option.bind_some, asHex_fits h1, asNum_fits h2, asNum_fits h3, asStr]
  rfl

theorem resOf_fields {d : ResSer} (h1 : d.type < 2 ^ 32) (h2 : d.attr < 2 ^ 32) (h3 : d.start < 2 ^ 64) (h4 : d.length < 2 ^ 64) (pre : List (String × Json))
    (hp : ∀ f ∈ pre, f.1 = "type") : resOf (pre ++ d.fields) = some d := by
  have skip : ∀ k : String, k ≠ "type" → field (pre ++ d.fields) k = field d.fields k := fun k hk => by
    unfold field
    rw [List.filter_append, List.filter_eq_nil_iff.2 (fun f hf => by simp [hp f hf, hk.symm])]
    rfl
  have e1 : field d.fields "owner" = some (.str d.owner) := field_cons _ _ _ (by simp)
  have e2 : field d.fields "resource_type" = some (.num d.type) := by
    unfold ResSer.fields
    rw [field_skip _ _ _ _ (by simp)]
    exact field_cons _ _ _ (by simp)
  have e3 : field d.fields "resource_attribute" = some (.str (hexString d.attr)) := by
    unfold ResSer.fields
    rw [field_skip _ _ _ _ (by simp), field_skip _ _ _ _ (by simp)]
    exact field_cons _ _ _ (by simp)
  have e4 : field d.fields "physical_start" = some (.str (hexString d.start)) := by
    unfold ResSer.fields
    rw [field_skip _ _ _ _ (by simp), field_skip _ _ _ _ (by simp), field_skip _ _ _ _ (by simp)]
    exact field_cons _ _ _ (by simp)
  have e5 : field d.fields "resource_length" = some (.str (hexString d.length)) := by
    unfold ResSer.fields
    rw [field_skip _ _ _ _ (by simp), field_skip _ _ _ _ (by simp), field_skip _ _ _ _ (by simp), field_skip _ _ _ _ (by simp)]
    exact field_cons _ _ _ (by simp)
  unfold resOf
  rw [skip _ (by simp), skip _ (by simp), skip _ (by simp), skip _ (by simp), skip _ (by simp), e1, e2, e3, e4, e5]
  simp only [Option.bind_some, asHex_fits h2, asHex_fits h3, asHex_fits h4, asNum_fits h1, asStr]
  rfl

theorem hobOf_obj {v : Variant} {fs : List (String × Json)} (h : ∀ f ∈ fs, f.1 ≠ "type") :
    hobOf (.obj (("type", .str v.name.toList) :: fs)) = contentOf (("type", .str v.name.toList) :: fs) v := by
  have hv : variantOf v.name.toList = some v := by cases v <;> decide +kernel
  show (((field (("type", Json.str v.name.toList) :: fs) "type").bind asStr).bind variantOf).bind (contentOf _) = _
  rw [field_cons _ _ _ h]
  show (variantOf v.name.toList).bind _ = _
  rw [hv]
  rfl

/-- The field number `i` of a list whose names are different. -/
theorem field_at {fs : List (String × Json)} (hd : (fs.map Prod.fst).Nodup) {f : String × Json} (hf : f ∈ fs) : field fs f.1 = some f.2 := by
  induction fs with
  | nil => exact (List.not_mem_nil hf).elim
  | cons g fs ih =>
    rw [List.map_cons, List.nodup_cons] at hd
    rcases List.mem_cons.1 hf with rfl | hin
    · exact field_cons _ _ _ fun x hx he => hd.1 (he ▸ List.mem_map_of_mem hx)
    · have hne : g.1 ≠ f.1 := fun he => hd.1 (he ▸ List.mem_map_of_mem hin)
      rw [show g :: fs = (g.1, g.2) :: fs from rfl, field_skip _ _ _ _ hne]
      exact ih hd.2 hin

/-- Reading the JSON of a HOB gives what was written. -/
theorem json_round_trip {h : HobSer} (hf : h.Fits) : hobOf h.json = some h := by
  cases h with
  | handoff v t b ft fb e =>
    obtain ⟨h1, h2, h3, h4, h5, h6⟩ := hf
    show hobOf (.obj (("type", .str (Variant.name .handoff).toList) :: _)) = _
    rw [hobOf_obj (by simp)]
    generalize hfs : (("type", Json.str (Variant.name .handoff).toList) :: _) = fs
    have hd : (fs.map Prod.fst).Nodup := by rw [← hfs]; simp only [List.map_cons, List.map_nil]; decide
    have e1 : field fs "version" = some (.num v) := field_at hd (f := ("version", .num v)) (by rw [← hfs]; simp)
    have e2 : field fs "memory_top" = some (.str (hexString t)) := field_at hd (f := ("memory_top", .str (hexString t))) (by rw [← hfs]; simp)
    have e3 : field fs "memory_bottom" = some (.str (hexString b)) := field_at hd (f := ("memory_bottom", .str (hexString b))) (by rw [← hfs]; simp)
    have e4 : field fs "free_memory_top" = some (.str (hexString ft)) := field_at hd (f := ("free_memory_top", .str (hexString ft))) (by rw [← hfs]; simp)
    have e5 : field fs "free_memory_bottom" = some (.str (hexString fb)) := field_at hd (f := ("free_memory_bottom", .str (hexString fb))) (by rw [← hfs]; simp)
    have e6 : field fs "end_of_hob_list" = some (.str (hexString e)) := field_at hd (f := ("end_of_hob_list", .str (hexString e))) (by rw [← hfs]; simp)
    unfold contentOf handoffOf
    simp only [e1, e2, e3, e4, e5, e6, Option.bind_some, asHex_fits h2, asHex_fits h3, asHex_fits h4, asHex_fits h5, asHex_fits h6, asNum_fits h1]
    rfl
  | alloc d =>
    obtain ⟨h1, h2, h3⟩ := hf
    show hobOf (.obj (("type", .str (Variant.name .alloc).toList) :: _)) = _
    rw [hobOf_obj (by simp)]
    unfold contentOf
    simp only
    rw [field_skip _ _ _ _ (by simp), field_cons _ _ _ (by simp)]
    show ((allocOf d.fields).map _) = _
    rw [allocOf_fields h1 h2 h3]
    rfl
  | resource d =>
    obtain ⟨h1, h2, h3, h4⟩ := hf
    show hobOf (.obj (("type", .str (Variant.name .resource).toList) :: _)) = _
    rw [hobOf_obj (by simp [ResSer.fields])]
    show ((resOf ([("type", Json.str (Variant.name .resource).toList)] ++ d.fields)).map _) = _
    rw [resOf_fields h1 h2 h3 h4 _ (by simp)]
    rfl
  | resource2 d a =>
    obtain ⟨h1, h2, h3, h4, h5⟩ := hf
    have e := resOf_fields h1 h2 h3 h4 [] (by simp)
    rw [List.nil_append] at e
    show hobOf (.obj (("type", .str (Variant.name .resource2).toList) :: _)) = _
    rw [hobOf_obj (by simp)]
    unfold contentOf resource2Of
    simp only
    rw [field_skip _ _ _ _ (by simp), field_cons _ _ _ (by simp), field_skip _ _ _ _ (by simp), field_skip _ _ _ _ (by simp), field_cons _ _ _ (by simp)]
    simp only [Option.bind_some, asObj, e, asNum_fits h5]
    rfl
  | guid n =>
    show hobOf (.obj (("type", .str (Variant.name .guid).toList) :: _)) = _
    rw [hobOf_obj (by simp)]
    unfold contentOf
    simp only
    rw [field_skip _ _ _ _ (by simp), field_cons _ _ _ (by simp)]
    rfl
  | fv b n =>
    show hobOf (.obj (("type", .str (Variant.name .fv).toList) :: _)) = _
    rw [hobOf_obj (by simp)]
    unfold contentOf fvOf
    simp only
    rw [field_skip _ _ _ _ (by simp), field_cons _ _ _ (by simp), field_skip _ _ _ _ (by simp), field_skip _ _ _ _ (by simp), field_cons _ _ _ (by simp)]
    simp only [Option.bind_some, asHex_fits hf.1, asNum_fits hf.2]
    rfl
  | cpu m i =>
    show hobOf (.obj (("type", .str (Variant.name .cpu).toList) :: _)) = _
    rw [hobOf_obj (by simp)]
    unfold contentOf cpuOf
    simp only
    rw [field_skip _ _ _ _ (by simp), field_cons _ _ _ (by simp), field_skip _ _ _ _ (by simp), field_skip _ _ _ _ (by simp), field_cons _ _ _ (by simp)]
    simp only [Option.bind_some, asNum_fits hf.1, asNum_fits hf.2]
    rfl
  | unknown =>
    show hobOf (.obj (("type", .str (Variant.name .unknown).toList) :: _)) = _
    rw [hobOf_obj (by simp)]
    rfl

theorem ofHob_fits (v : Hob.View) : (ofHob v).Fits := by
  cases v with
  | handoff h => exact ⟨h.version.toNat_lt, h.memoryTop.toNat_lt, h.memoryBottom.toNat_lt, h.freeMemoryTop.toNat_lt, h.freeMemoryBottom.toNat_lt, h.endOfHobList.toNat_lt⟩
  | alloc h => exact ⟨h.desc.base.toNat_lt, h.desc.length.toNat_lt, h.desc.type.toNat_lt⟩
  | resource h => exact ⟨h.resourceType.toNat_lt, h.attr.toNat_lt, h.start.toNat_lt, h.length.toNat_lt⟩
  | resource2 h => exact ⟨h.v1.resourceType.toNat_lt, h.v1.attr.toNat_lt, h.v1.start.toNat_lt, h.v1.length.toNat_lt, h.attributes.toNat_lt⟩
  | fv h => exact ⟨h.base.toNat_lt, h.length.toNat_lt⟩
  | cpu h => exact ⟨h.memorySpace.toNat_lt, h.ioSpace.toNat_lt⟩
  | _ => trivial

/-- The GUIDs of a HOB have 16 bytes. -/
def GuidsWhole : Hob.View → Prop
  | .alloc h => h.desc.name.length = 16
  | .resource h => h.owner.length = 16
  | .resource2 h => h.v1.owner.length = 16
  | .guid h _ => h.name.length = 16
  | _ => True

theorem fromBytes_valid {b : List UInt8} (h : b.length = 16) : Guid.Valid (Guid.fromBytes b) ∧ (Guid.fromBytes b).bytes = b := Guid.bytes_fromBytes h

theorem guidString_injective {a b : List UInt8} (ha : a.length = 16) (hb : b.length = 16) (h : guidString a = guidString b) : a = b := by
  rw [← (fromBytes_valid ha).2, ← (fromBytes_valid hb).2, guid_injective (fromBytes_valid ha).1 (fromBytes_valid hb).1 h]

/-- Two HOBs with the same JSON agree in every field that the JSON shows. -/
theorem json_determines {v w : Hob.View} (hv : GuidsWhole v) (hw : GuidsWhole w) (h : (ofHob v).json = (ofHob w).json) : shown v = shown w := by
  have e : ofHob v = ofHob w := by
    have := json_round_trip (ofHob_fits v)
    rw [h, json_round_trip (ofHob_fits w)] at this
    injection this with this
    exact this.symm
  cases v <;> cases w <;> simp only [ofHob, resSer, HobSer.handoff.injEq, HobSer.alloc.injEq, AllocSer.mk.injEq, HobSer.resource.injEq, HobSer.resource2.injEq, ResSer.mk.injEq, HobSer.guid.injEq,
    HobSer.fv.injEq, HobSer.cpu.injEq, reduceCtorEq, UInt32.toNat_inj, UInt64.toNat_inj, UInt8.toNat_inj] at e <;> simp only [shown]
  · obtain ⟨e1, e2, e3, e4, e5, e6⟩ := e
    rw [e1, e2, e3, e4, e5, e6]
  · obtain ⟨e1, e2, e3, e4⟩ := e
    rw [guidString_injective hv hw e1, e2, e3, e4]
  · obtain ⟨e1, e2, e3, e4, e5⟩ := e
    rw [guidString_injective hv hw e1, e2, e3, e4, e5]
  · rw [guidString_injective hv hw e]
  · obtain ⟨e1, e2⟩ := e
    rw [e1, e2]
  · obtain ⟨e1, e2⟩ := e
    rw [e1, e2]
  · obtain ⟨⟨e1, e2, e3, e4, e5⟩, e6⟩ := e
    rw [guidString_injective hv hw e1, e2, e3, e4, e5, e6]

/-- What `view` finds in memory has whole GUIDs. -/
theorem view_whole (m : Hob.Mem) (h : Hob.Hob) : GuidsWhole (Hob.view m h) := by
  have hl : ∀ (n a : Nat), (Hob.rd m a n).length = n := by
    intro n
    induction n with
    | zero => exact fun _ => rfl
    | succ n ih => exact fun a => by unfold Hob.rd; rw [List.length_cons, ih]
  cases h <;> first | trivial | exact hl 16 _

/-- And a HOB that is not of a kind the JSON knows is written like every other such HOB. -/
theorem json_other (v : Hob.View) : shown v = .other ↔ hobOf (ofHob v).json = some .unknown := by
  rw [json_round_trip (ofHob_fits v)]
  cases v <;> simp [shown, ofHob]

def someAlloc : Hob.View := .alloc ⟨⟨2, 48, 0⟩, ⟨List.replicate 16 0xAB, 0x1000, 0x2000, 4, [0, 0, 0, 0]⟩⟩

example : GuidsWhole someAlloc := rfl
example : hobOf (ofHob someAlloc).json = some (.alloc ⟨"abababab-abab-abab-abab-abababababab".toList, 0x1000, 0x2000, 4⟩) := by decide +kernel

/-- Finding: an allocation for a module, a capsule and the second and third kinds of firmware volumes are all written as `unknown_hob`. -/
theorem module_unknown (h : Hob.MemoryAllocationModule) (c : Hob.FirmwareVolume) (f2 : Hob.FirmwareVolume2) (f3 : Hob.FirmwareVolume3) :
    ofHob (.module h) = .unknown ∧ ofHob (.capsule c) = .unknown ∧ ofHob (.fv2 f2) = .unknown ∧ ofHob (.fv3 f3) = .unknown := ⟨rfl, rfl, rfl, rfl⟩

/-- Finding: the boot mode is not in the JSON of a handoff HOB, nor the data in that of a GUID HOB. -/
theorem data_lost (h : Hob.Handoff) (mode : UInt32) (g : Hob.GuidHob) (d d' : List UInt8) :
    ofHob (.handoff { h with bootMode := mode }) = ofHob (.handoff h) ∧ ofHob (.guid g d) = ofHob (.guid g d') := ⟨rfl, rfl⟩

end Verif.Serial
