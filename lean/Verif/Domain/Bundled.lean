import Verif.XmlMap.Fields
/-
The classes that come with eulxml (eulxml/xmlmap/{dc,premis,mods,cerp,eadmap,teimap}.py): the prefixes that they always declare, and their single-value
fields of text, number and truth-value types with inherited fields included.  Written by tools/bundled.py from the Python sources.

Left out: fields for nodes and lists, and the following fields, whose XPath is not a chain of child steps and attributes:
  dc.DublinCoreElement.name (`local-name(.)`, line 35)
  dc.DublinCoreElement.value (`.`, line 36)
  eadmap._EadBase.match_count (`count(.//exist:match)`, line 44), inherited by all classes of eadmap
  eadmap.Heading.value (`.`, line 70)
  eadmap.Container.value (`.`, line 119)
  eadmap.DateField.value (`.`, line 139)
  eadmap.Unitid.value (`.`, line 155)
  eadmap.EadId.value (`.`, line 484)
  teimap.TeiDiv.title (`tei:head[1]`, line 65)
  teimap.TeiDiv.text (`.`, line 67)
  teimap.TeiFloatingText.head (`./tei:body/tei:head`, line 78)
  teimap.TeiInterp.value (`.`, line 97)
-/
namespace Bundled
open Xml

/-- The type of a field: `StringField` (and `SchemaField`) with `normalize`, `IntegerField`, `SimpleBooleanField` with the texts for true and false. -/
inductive Kind where
  | str (normalize : Bool)
  | int
  | bool (t : Str) (f : Option Str)

/-- A field of a class. -/
structure FieldDecl where
  name : Str
  kind : Kind
  xpath : Str

/-- A class: module and name, `ROOT_NAMESPACES`, fields. -/
structure ClassDecl where
  name : Str
  namespaces : List (Str × Str)
  fields : List FieldDecl

/-- dc.py:31 -/
def dcNs : List (Str × Str) := [(c%"oai_dc", c%"http://www.openarchives.org/OAI/2.0/oai_dc/"), (c%"dc", c%"http://purl.org/dc/elements/1.1/")]
/-- premis.py:45-48 -/
def premisNs : List (Str × Str) := [(c%"p", c%"info:lc/xmlns/premis-v2"), (c%"xsi", c%"http://www.w3.org/2001/XMLSchema-instance")]
/-- mods.py:28-39 -/
def modsNs : List (Str × Str) := [(c%"mods", c%"http://www.loc.gov/mods/v3")]
/-- cerp.py:38-42 -/
def cerpNs : List (Str × Str) := [(c%"xm", c%"http://www.archives.ncdcr.gov/mail-account")]
/-- eadmap.py:35-39 -/
def eadmapNs : List (Str × Str) := [(c%"e", c%"urn:isbn:1-931666-22-9"), (c%"xlink", c%"http://www.w3.org/1999/xlink"), (c%"exist", c%"http://exist.sourceforge.net/NS/exist")]
/-- teimap.py:28-31 -/
def teimapNs : List (Str × Str) := [(c%"tei", c%"http://www.tei-c.org/ns/1.0"), (c%"xml", c%"http://www.w3.org/XML/1998/namespace")]

/-- dc.py:38, fields at lines 50-106 -/
def dc_DublinCore : ClassDecl := ⟨c%"dc.DublinCore", dcNs, [
  ⟨c%"contributor", .str false, c%"dc:contributor"⟩,
  ⟨c%"coverage", .str false, c%"dc:coverage"⟩,
  ⟨c%"creator", .str false, c%"dc:creator"⟩,
  ⟨c%"date", .str false, c%"dc:date"⟩,
  ⟨c%"description", .str false, c%"dc:description"⟩,
  ⟨c%"format", .str false, c%"dc:format"⟩,
  ⟨c%"identifier", .str false, c%"dc:identifier"⟩,
  ⟨c%"language", .str false, c%"dc:language"⟩,
  ⟨c%"publisher", .str false, c%"dc:publisher"⟩,
  ⟨c%"relation", .str false, c%"dc:relation"⟩,
  ⟨c%"rights", .str false, c%"dc:rights"⟩,
  ⟨c%"source", .str false, c%"dc:source"⟩,
  ⟨c%"subject", .str false, c%"dc:subject"⟩,
  ⟨c%"title", .str false, c%"dc:title"⟩,
  ⟨c%"type", .str false, c%"dc:type"⟩]⟩

/-- premis.py:63, fields at lines 70-82 -/
def premis_Object : ClassDecl := ⟨c%"premis.Object", premisNs, [
  ⟨c%"type", .str false, c%"@xsi:type"⟩,
  ⟨c%"id_type", .str false, c%"p:objectIdentifier/p:objectIdentifierType"⟩,
  ⟨c%"id", .str false, c%"p:objectIdentifier/p:objectIdentifierValue"⟩]⟩

/-- premis.py:85, fields at lines 99-124 -/
def premis_Event : ClassDecl := ⟨c%"premis.Event", premisNs, [
  ⟨c%"type", .str false, c%"p:eventType"⟩,
  ⟨c%"id_type", .str false, c%"p:eventIdentifier/p:eventIdentifierType"⟩,
  ⟨c%"id", .str false, c%"p:eventIdentifier/p:eventIdentifierValue"⟩,
  ⟨c%"date", .str false, c%"p:eventDateTime"⟩,
  ⟨c%"detail", .str false, c%"p:eventDetail"⟩,
  ⟨c%"outcome", .str false, c%"p:eventOutcomeInformation/p:eventOutcome"⟩,
  ⟨c%"agent_type", .str false, c%"p:linkingAgentIdentifier/p:linkingAgentIdentifierType"⟩,
  ⟨c%"agent_id", .str false, c%"p:linkingAgentIdentifier/p:linkingAgentIdentifierValue"⟩,
  ⟨c%"object_type", .str false, c%"p:linkingObjectIdentifier/p:linkingObjectIdentifierType"⟩,
  ⟨c%"object_id", .str false, c%"p:linkingObjectIdentifier/p:linkingObjectIdentifierValue"⟩]⟩

/-- premis.py:127, fields at lines 137 -/
def premis_Premis : ClassDecl := ⟨c%"premis.Premis", premisNs, [
  ⟨c%"version", .str false, c%"@version"⟩]⟩

/-- mods.py:89, fields at lines 114 -/
def mods_OriginInfo : ClassDecl := ⟨c%"mods.OriginInfo", modsNs, [
  ⟨c%"publisher", .str false, c%"mods:publisher"⟩]⟩

/-- mods.py:123, fields at lines 125-128 -/
def mods_RecordInfo : ClassDecl := ⟨c%"mods.RecordInfo", modsNs, [
  ⟨c%"record_id", .str false, c%"mods:recordIdentifier"⟩,
  ⟨c%"record_origin", .str false, c%"mods:recordOrigin"⟩,
  ⟨c%"creation_date", .str false, c%"mods:recordCreationDate[@encoding=\"w3cdtf\"]"⟩,
  ⟨c%"change_date", .str false, c%"mods:recordChangeDate[@encoding=\"w3cdtf\"]"⟩]⟩

/-- mods.py:172, fields at lines 175-177 -/
def mods_Role : ClassDecl := ⟨c%"mods.Role", modsNs, [
  ⟨c%"type", .str false, c%"mods:roleTerm/@type"⟩,
  ⟨c%"authority", .str false, c%"mods:roleTerm/@authority"⟩,
  ⟨c%"text", .str false, c%"mods:roleTerm"⟩]⟩

/-- mods.py:179, fields at lines 183-188 -/
def mods_Name : ClassDecl := ⟨c%"mods.Name", modsNs, [
  ⟨c%"type", .str false, c%"@type"⟩,
  ⟨c%"authority", .str false, c%"@authority"⟩,
  ⟨c%"id", .str false, c%"@ID"⟩,
  ⟨c%"display_form", .str false, c%"mods:displayForm"⟩,
  ⟨c%"affiliation", .str false, c%"mods:affiliation"⟩]⟩

/-- mods.py:212, fields at lines 214-215 -/
def mods_Location : ClassDecl := ⟨c%"mods.Location", modsNs, [
  ⟨c%"physical", .str false, c%"mods:physicalLocation"⟩,
  ⟨c%"url", .str false, c%"mods:url"⟩]⟩

/-- mods.py:219, fields at lines 221-228 -/
def mods_Subject : ClassDecl := ⟨c%"mods.Subject", modsNs, [
  ⟨c%"authority", .str false, c%"@authority"⟩,
  ⟨c%"id", .str false, c%"@ID"⟩,
  ⟨c%"geographic", .str false, c%"mods:geographic"⟩,
  ⟨c%"topic", .str false, c%"mods:topic"⟩,
  ⟨c%"title", .str false, c%"mods:titleInfo/mods:title"⟩]⟩

/-- mods.py:230, fields at lines 233-239 -/
def mods_TitleInfo : ClassDecl := ⟨c%"mods.TitleInfo", modsNs, [
  ⟨c%"title", .str false, c%"mods:title"⟩,
  ⟨c%"subtitle", .str false, c%"mods:subTitle"⟩,
  ⟨c%"part_number", .str false, c%"mods:partNumber"⟩,
  ⟨c%"part_name", .str false, c%"mods:partName"⟩,
  ⟨c%"non_sort", .str false, c%"mods:nonSort"⟩,
  ⟨c%"type", .str false, c%"@type"⟩,
  ⟨c%"label", .str false, c%"@displayLabel"⟩]⟩

/-- mods.py:254, fields at lines 256-257 -/
def mods_PhysicalDescription : ClassDecl := ⟨c%"mods.PhysicalDescription", modsNs, [
  ⟨c%"media_type", .str false, c%"mods:internetMediaType"⟩,
  ⟨c%"extent", .str false, c%"mods:extent"⟩]⟩

/-- mods.py:259, fields at lines 261-262 -/
def mods_PartDetail : ClassDecl := ⟨c%"mods.PartDetail", modsNs, [
  ⟨c%"type", .str false, c%"@type"⟩,
  ⟨c%"number", .str false, c%"mods:number"⟩]⟩

/-- mods.py:272, fields at lines 274-277 -/
def mods_PartExtent : ClassDecl := ⟨c%"mods.PartExtent", modsNs, [
  ⟨c%"unit", .str false, c%"@unit"⟩,
  ⟨c%"start", .str false, c%"mods:start"⟩,
  ⟨c%"end", .str false, c%"mods:end"⟩,
  ⟨c%"total", .str false, c%"mods:total"⟩]⟩

/-- mods.py:288, fields at lines 290 -/
def mods_Part : ClassDecl := ⟨c%"mods.Part", modsNs, [
  ⟨c%"type", .str false, c%"@type"⟩]⟩

/-- mods.py:302, fields at lines 307-322 -/
def mods_BaseMods : ClassDecl := ⟨c%"mods.BaseMods", modsNs, [
  ⟨c%"id", .str false, c%"@ID"⟩,
  ⟨c%"title", .str false, c%"mods:titleInfo/mods:title"⟩,
  ⟨c%"resource_type", .str false, c%"mods:typeOfResource"⟩,
  ⟨c%"location", .str false, c%"mods:location/mods:physicalLocation"⟩]⟩

/-- mods.py:330, fields at lines 307-335 -/
def mods_RelatedItem : ClassDecl := ⟨c%"mods.RelatedItem", modsNs, [
  ⟨c%"id", .str false, c%"@ID"⟩,
  ⟨c%"title", .str false, c%"mods:titleInfo/mods:title"⟩,
  ⟨c%"resource_type", .str false, c%"mods:typeOfResource"⟩,
  ⟨c%"location", .str false, c%"mods:location/mods:physicalLocation"⟩,
  ⟨c%"type", .str false, c%"@type"⟩,
  ⟨c%"label", .str false, c%"@displayLabel"⟩]⟩

/-- mods.py:337, fields at lines 307-322 -/
def mods_MODS : ClassDecl := ⟨c%"mods.MODS", modsNs, [
  ⟨c%"id", .str false, c%"@ID"⟩,
  ⟨c%"title", .str false, c%"mods:titleInfo/mods:title"⟩,
  ⟨c%"resource_type", .str false, c%"mods:typeOfResource"⟩,
  ⟨c%"location", .str false, c%"mods:location/mods:physicalLocation"⟩]⟩

/-- mods.py:346, fields at lines 307-322 -/
def mods_MODSv34 : ClassDecl := ⟨c%"mods.MODSv34", modsNs, [
  ⟨c%"id", .str false, c%"@ID"⟩,
  ⟨c%"title", .str false, c%"mods:titleInfo/mods:title"⟩,
  ⟨c%"resource_type", .str false, c%"mods:typeOfResource"⟩,
  ⟨c%"location", .str false, c%"mods:location/mods:physicalLocation"⟩]⟩

/-- cerp.py:44, fields at lines 46-47 -/
def cerp_Parameter : ClassDecl := ⟨c%"cerp.Parameter", cerpNs, [
  ⟨c%"name", .str false, c%"xm:Name"⟩,
  ⟨c%"value", .str false, c%"xm:Value"⟩]⟩

/-- cerp.py:56, fields at lines 58-59 -/
def cerp_Header : ClassDecl := ⟨c%"cerp.Header", cerpNs, [
  ⟨c%"name", .str false, c%"xm:Name"⟩,
  ⟨c%"value", .str false, c%"xm:Value"⟩]⟩

/-- cerp.py:90, fields at lines 95-96 -/
def cerp_Hash : ClassDecl := ⟨c%"cerp.Hash", cerpNs, [
  ⟨c%"value", .str false, c%"xm:Value"⟩,
  ⟨c%"function", .str false, c%"xm:Function"⟩]⟩

/-- cerp.py:106, fields at lines 110-111 -/
def cerp_BaseExternal : ClassDecl := ⟨c%"cerp._BaseExternal", cerpNs, [
  ⟨c%"rel_path", .str false, c%"xm:RelPath"⟩,
  ⟨c%"eol", .str false, c%"xm:Eol"⟩]⟩

/-- cerp.py:125, fields at lines 127 -/
def cerp_BodyContent : ClassDecl := ⟨c%"cerp.BodyContent", cerpNs, [
  ⟨c%"content", .str false, c%"xm:Content"⟩]⟩

/-- cerp.py:130, fields at lines 110-133 -/
def cerp_ExtBodyContent : ClassDecl := ⟨c%"cerp.ExtBodyContent", cerpNs, [
  ⟨c%"rel_path", .str false, c%"xm:RelPath"⟩,
  ⟨c%"eol", .str false, c%"xm:Eol"⟩,
  ⟨c%"local_id", .int, c%"xm:LocalId"⟩,
  ⟨c%"xml_wrapped", .bool c%"1" (some c%"0"), c%"xm:XMLWrapped"⟩]⟩

/-- cerp.py:137, fields at lines 149 -/
def cerp_SingleBody : ClassDecl := ⟨c%"cerp.SingleBody", cerpNs, [
  ⟨c%"phantom_body", .str false, c%"xm:PhantomBody"⟩]⟩

/-- cerp.py:152, fields at lines 154-155 -/
def cerp_MultiBody : ClassDecl := ⟨c%"cerp.MultiBody", cerpNs, [
  ⟨c%"preamble", .str false, c%"xm:Preamble"⟩,
  ⟨c%"epilogue", .str false, c%"xm:Epilogue"⟩]⟩

/-- cerp.py:164, fields at lines 166-167 -/
def cerp_Incomplete : ClassDecl := ⟨c%"cerp.Incomplete", cerpNs, [
  ⟨c%"error_type", .str false, c%"xm:ErrorType"⟩,
  ⟨c%"error_location", .str false, c%"xm:ErrorLocation"⟩]⟩

/-- cerp.py:173, fields at lines 175-179 -/
def cerp_BaseMessage : ClassDecl := ⟨c%"cerp._BaseMessage", cerpNs, [
  ⟨c%"local_id", .int, c%"xm:LocalId"⟩,
  ⟨c%"message_id", .str false, c%"xm:MessageId"⟩,
  ⟨c%"message_id_supplied", .bool c%"1" none, c%"xm:MessageId/@Supplied"⟩,
  ⟨c%"mime_version", .str false, c%"xm:MimeVersion"⟩]⟩

/-- cerp.py:209, fields at lines 110-179 -/
def cerp_Message : ClassDecl := ⟨c%"cerp.Message", cerpNs, [
  ⟨c%"rel_path", .str false, c%"xm:RelPath"⟩,
  ⟨c%"eol", .str false, c%"xm:Eol"⟩,
  ⟨c%"local_id", .int, c%"xm:LocalId"⟩,
  ⟨c%"message_id", .str false, c%"xm:MessageId"⟩,
  ⟨c%"message_id_supplied", .bool c%"1" none, c%"xm:MessageId/@Supplied"⟩,
  ⟨c%"mime_version", .str false, c%"xm:MimeVersion"⟩]⟩

/-- cerp.py:317, fields at lines 175-179 -/
def cerp_ChildMessage : ClassDecl := ⟨c%"cerp.ChildMessage", cerpNs, [
  ⟨c%"local_id", .int, c%"xm:LocalId"⟩,
  ⟨c%"message_id", .str false, c%"xm:MessageId"⟩,
  ⟨c%"message_id_supplied", .bool c%"1" none, c%"xm:MessageId/@Supplied"⟩,
  ⟨c%"mime_version", .str false, c%"xm:MimeVersion"⟩]⟩

/-- cerp.py:329, fields at lines 110-111 -/
def cerp_Mbox : ClassDecl := ⟨c%"cerp.Mbox", cerpNs, [
  ⟨c%"rel_path", .str false, c%"xm:RelPath"⟩,
  ⟨c%"eol", .str false, c%"xm:Eol"⟩]⟩

/-- cerp.py:334, fields at lines 340 -/
def cerp_Folder : ClassDecl := ⟨c%"cerp.Folder", cerpNs, [
  ⟨c%"name", .str false, c%"xm:Name"⟩]⟩

/-- cerp.py:349, fields at lines 354-356 -/
def cerp_ReferencesAccount : ClassDecl := ⟨c%"cerp.ReferencesAccount", cerpNs, [
  ⟨c%"href", .str false, c%"xm:Href"⟩,
  ⟨c%"email_address", .str false, c%"xm:EmailAddress"⟩,
  ⟨c%"reference_type", .str false, c%"xm:RefType"⟩]⟩

/-- cerp.py:360, fields at lines 367-368 -/
def cerp_Account : ClassDecl := ⟨c%"cerp.Account", cerpNs, [
  ⟨c%"email_address", .str false, c%"xm:EmailAddress"⟩,
  ⟨c%"global_id", .str false, c%"xm:GlobalId"⟩]⟩

/-- eadmap.py:66, fields at lines 68 -/
def eadmap_Heading : ClassDecl := ⟨c%"eadmap.Heading", eadmapNs, [
  ⟨c%"source", .str false, c%"@source"⟩]⟩

/-- eadmap.py:111, fields at lines 117 -/
def eadmap_Container : ClassDecl := ⟨c%"eadmap.Container", eadmapNs, [
  ⟨c%"type", .str false, c%"@type"⟩]⟩

/-- eadmap.py:127, fields at lines 133-137 -/
def eadmap_DateField : ClassDecl := ⟨c%"eadmap.DateField", eadmapNs, [
  ⟨c%"normalized", .str false, c%"@normal"⟩,
  ⟨c%"calendar", .str false, c%"@calendar"⟩,
  ⟨c%"era", .str false, c%"@era"⟩]⟩

/-- eadmap.py:146, fields at lines 149-153 -/
def eadmap_Unitid : ClassDecl := ⟨c%"eadmap.Unitid", eadmapNs, [
  ⟨c%"identifier", .int, c%"@identifier"⟩,
  ⟨c%"country_code", .str false, c%"@countrycode"⟩,
  ⟨c%"repository_code", .str false, c%"@repositorycode"⟩]⟩

/-- eadmap.py:186, fields at lines 189-197 -/
def eadmap_DigitalArchivalObject : ClassDecl := ⟨c%"eadmap.DigitalArchivalObject", eadmapNs, [
  ⟨c%"audience", .str false, c%"@audience"⟩,
  ⟨c%"id", .str false, c%"@id"⟩,
  ⟨c%"title", .str false, c%"@xlink:title"⟩,
  ⟨c%"href", .str false, c%"@xlink:href"⟩,
  ⟨c%"show", .str false, c%"@xlink:show"⟩]⟩

/-- eadmap.py:201, fields at lines 210-218 -/
def eadmap_DescriptiveIdentification : ClassDecl := ⟨c%"eadmap.DescriptiveIdentification", eadmapNs, [
  ⟨c%"physdesc", .str false, c%"e:physdesc"⟩,
  ⟨c%"langmaterial", .str false, c%"e:langmaterial"⟩,
  ⟨c%"origination", .str true, c%"e:origination"⟩,
  ⟨c%"location", .str false, c%"e:physloc"⟩]⟩

/-- eadmap.py:226, fields at lines 228-230 -/
def eadmap_Component : ClassDecl := ⟨c%"eadmap.Component", eadmapNs, [
  ⟨c%"level", .str false, c%"@level"⟩,
  ⟨c%"id", .str false, c%"@id"⟩]⟩

/-- eadmap.py:289, fields at lines 296 -/
def eadmap_SubordinateComponents : ClassDecl := ⟨c%"eadmap.SubordinateComponents", eadmapNs, [
  ⟨c%"type", .str false, c%"@type"⟩]⟩

/-- eadmap.py:316, fields at lines 322-324 -/
def eadmap_Reference : ClassDecl := ⟨c%"eadmap.Reference", eadmapNs, [
  ⟨c%"type", .str false, c%"@xlink:type"⟩,
  ⟨c%"target", .str false, c%"@target"⟩]⟩

/-- eadmap.py:354, fields at lines 362 -/
def eadmap_Index : ClassDecl := ⟨c%"eadmap.Index", eadmapNs, [
  ⟨c%"id", .str false, c%"@id"⟩]⟩

/-- eadmap.py:367, fields at lines 375-383 -/
def eadmap_ArchivalDescription : ClassDecl := ⟨c%"eadmap.ArchivalDescription", eadmapNs, [
  ⟨c%"origination", .str true, c%"e:did/e:origination"⟩,
  ⟨c%"langmaterial", .str false, c%"e:did/e:langmaterial"⟩,
  ⟨c%"location", .str false, c%"e:did/e:physloc"⟩]⟩

/-- eadmap.py:433, fields at lines 441 -/
def eadmap_PublicationStatement : ClassDecl := ⟨c%"eadmap.PublicationStatement", eadmapNs, [
  ⟨c%"publisher", .str false, c%"e:publisher"⟩]⟩

/-- eadmap.py:470, fields at lines 476-482 -/
def eadmap_EadId : ClassDecl := ⟨c%"eadmap.EadId", eadmapNs, [
  ⟨c%"country", .str false, c%"@countrycode"⟩,
  ⟨c%"maintenance_agency", .str false, c%"@mainagencycode"⟩,
  ⟨c%"url", .str false, c%"@url"⟩,
  ⟨c%"identifier", .str false, c%"@identifier"⟩]⟩

/-- eadmap.py:488, fields at lines 498-509 -/
def eadmap_EncodedArchivalDescription : ClassDecl := ⟨c%"eadmap.EncodedArchivalDescription", eadmapNs, [
  ⟨c%"id", .str false, c%"@id"⟩,
  ⟨c%"author", .str false, c%"e:eadheader/e:filedesc/e:titlestmt/e:author"⟩,
  ⟨c%"physical_desc", .str false, c%"e:archdesc[@level=\"collection\"]/e:did/e:physdesc"⟩]⟩

/-- teimap.py:33, fields at lines 34 -/
def teimap_TeiLine : ClassDecl := ⟨c%"teimap.TeiLine", teimapNs, [
  ⟨c%"rend", .str false, c%"@rend"⟩]⟩

/-- teimap.py:45, fields at lines 46 -/
def teimap_TeiLineGroup : ClassDecl := ⟨c%"teimap.TeiLineGroup", teimapNs, [
  ⟨c%"head", .str false, c%"tei:head"⟩]⟩

/-- teimap.py:55, fields at lines 57 -/
def teimap_TeiEpigraph : ClassDecl := ⟨c%"teimap.TeiEpigraph", teimapNs, [
  ⟨c%"bibl", .str false, c%"tei:bibl"⟩]⟩

/-- teimap.py:60, fields at lines 61-70 -/
def teimap_TeiDiv : ClassDecl := ⟨c%"teimap.TeiDiv", teimapNs, [
  ⟨c%"id", .str false, c%"@xml:id"⟩,
  ⟨c%"type", .str false, c%"@type"⟩,
  ⟨c%"author", .str false, c%"tei:docAuthor/tei:name/tei:choice/tei:sic"⟩,
  ⟨c%"docauthor", .str false, c%"tei:docAuthor"⟩,
  ⟨c%"byline", .str false, c%"tei:byline"⟩]⟩

/-- teimap.py:84, fields at lines 87-90 -/
def teimap_TeiFigure : ClassDecl := ⟨c%"teimap.TeiFigure", teimapNs, [
  ⟨c%"ana", .str false, c%"@ana"⟩,
  ⟨c%"head", .str false, c%"tei:head"⟩,
  ⟨c%"description", .str false, c%"tei:figDesc"⟩,
  ⟨c%"entity", .str false, c%"tei:graphic/@url"⟩]⟩

/-- teimap.py:94, fields at lines 96 -/
def teimap_TeiInterp : ClassDecl := ⟨c%"teimap.TeiInterp", teimapNs, [
  ⟨c%"id", .str false, c%"@xml:id"⟩]⟩

/-- teimap.py:104, fields at lines 106 -/
def teimap_TeiInterpGroup : ClassDecl := ⟨c%"teimap.TeiInterpGroup", teimapNs, [
  ⟨c%"type", .str false, c%"@type"⟩]⟩

/-- teimap.py:109, fields at lines 110-113 -/
def teimap_TeiName : ClassDecl := ⟨c%"teimap.TeiName", teimapNs, [
  ⟨c%"type", .str false, c%"@person"⟩,
  ⟨c%"reg", .str false, c%"tei:choice/tei:reg"⟩,
  ⟨c%"value", .str false, c%"tei:choice/tei:sic"⟩]⟩

/-- teimap.py:116, fields at lines 118-127 -/
def teimap_TeiHeader : ClassDecl := ⟨c%"teimap.TeiHeader", teimapNs, [
  ⟨c%"title", .str false, c%"tei:fileDesc/tei:titleStmt/tei:title"⟩,
  ⟨c%"publisher", .str false, c%"tei:fileDesc/tei:publicationStmt/tei:publisher"⟩,
  ⟨c%"publication_date", .str false, c%"tei:fileDesc/tei:publicationStmt/tei:date"⟩,
  ⟨c%"availability", .str false, c%"tei:fileDesc/tei:publicationStmt/tei:availability"⟩,
  ⟨c%"source_description", .str false, c%"tei:fileDesc/tei:sourceDesc"⟩,
  ⟨c%"series_statement", .str false, c%"tei:fileDesc/tei:seriesStmt"⟩]⟩

/-- teimap.py:130, fields at lines 132-135 -/
def teimap_Tei : ClassDecl := ⟨c%"teimap.Tei", teimapNs, [
  ⟨c%"id", .str false, c%"@xml:id"⟩,
  ⟨c%"title", .str false, c%"tei:teiHeader/tei:fileDesc/tei:titleStmt/tei:title"⟩,
  ⟨c%"author", .str false, c%"tei:teiHeader/tei:fileDesc/tei:titleStmt/tei:author/tei:name/tei:choice/tei:sic"⟩,
  ⟨c%"editor", .str false, c%"tei:teiHeader/tei:fileDesc/tei:titleStmt/tei:editor/tei:name/tei:choice/tei:sic"⟩]⟩

/-- The classes whose fields are child elements and attributes. -/
def records : List ClassDecl := [
  dc_DublinCore, premis_Object, premis_Event, premis_Premis, mods_OriginInfo, mods_RecordInfo,
  mods_Role, mods_Name, mods_Location, mods_Subject, mods_TitleInfo, mods_PhysicalDescription,
  mods_PartDetail, mods_PartExtent, mods_Part, mods_BaseMods, mods_RelatedItem, mods_MODS,
  mods_MODSv34, cerp_Parameter, cerp_Header, cerp_Hash, cerp_BaseExternal, cerp_BodyContent,
  cerp_ExtBodyContent, cerp_SingleBody, cerp_MultiBody, cerp_Incomplete, cerp_BaseMessage, cerp_Message,
  cerp_ChildMessage, cerp_Mbox, cerp_Folder, cerp_ReferencesAccount, cerp_Account, eadmap_Heading,
  eadmap_Container, eadmap_DateField, eadmap_Unitid, eadmap_DigitalArchivalObject, eadmap_DescriptiveIdentification, eadmap_Component,
  eadmap_SubordinateComponents, eadmap_Reference, eadmap_Index, eadmap_ArchivalDescription, eadmap_PublicationStatement, eadmap_EadId,
  eadmap_EncodedArchivalDescription, teimap_TeiLine, teimap_TeiLineGroup, teimap_TeiEpigraph, teimap_TeiDiv, teimap_TeiFigure,
  teimap_TeiInterp, teimap_TeiInterpGroup, teimap_TeiName, teimap_TeiHeader, teimap_Tei]

/-- mods.py:46, fields at lines 51-55 -/
def mods_Date : ClassDecl := ⟨c%"mods.Date", modsNs, [
  ⟨c%"date", .str false, c%"text()"⟩,
  ⟨c%"key_date", .bool c%"yes" none, c%"@keyDate"⟩,
  ⟨c%"encoding", .str false, c%"@encoding"⟩,
  ⟨c%"point", .str false, c%"@point"⟩,
  ⟨c%"qualifier", .str false, c%"@qualifier"⟩]⟩

/-- mods.py:67, fields at lines 51-55 -/
def mods_DateCreated : ClassDecl := ⟨c%"mods.DateCreated", modsNs, [
  ⟨c%"date", .str false, c%"text()"⟩,
  ⟨c%"key_date", .bool c%"yes" none, c%"@keyDate"⟩,
  ⟨c%"encoding", .str false, c%"@encoding"⟩,
  ⟨c%"point", .str false, c%"@point"⟩,
  ⟨c%"qualifier", .str false, c%"@qualifier"⟩]⟩

/-- mods.py:70, fields at lines 51-55 -/
def mods_DateIssued : ClassDecl := ⟨c%"mods.DateIssued", modsNs, [
  ⟨c%"date", .str false, c%"text()"⟩,
  ⟨c%"key_date", .bool c%"yes" none, c%"@keyDate"⟩,
  ⟨c%"encoding", .str false, c%"@encoding"⟩,
  ⟨c%"point", .str false, c%"@point"⟩,
  ⟨c%"qualifier", .str false, c%"@qualifier"⟩]⟩

/-- mods.py:73, fields at lines 51-55 -/
def mods_DateCaptured : ClassDecl := ⟨c%"mods.DateCaptured", modsNs, [
  ⟨c%"date", .str false, c%"text()"⟩,
  ⟨c%"key_date", .bool c%"yes" none, c%"@keyDate"⟩,
  ⟨c%"encoding", .str false, c%"@encoding"⟩,
  ⟨c%"point", .str false, c%"@point"⟩,
  ⟨c%"qualifier", .str false, c%"@qualifier"⟩]⟩

/-- mods.py:76, fields at lines 51-55 -/
def mods_DateValid : ClassDecl := ⟨c%"mods.DateValid", modsNs, [
  ⟨c%"date", .str false, c%"text()"⟩,
  ⟨c%"key_date", .bool c%"yes" none, c%"@keyDate"⟩,
  ⟨c%"encoding", .str false, c%"@encoding"⟩,
  ⟨c%"point", .str false, c%"@point"⟩,
  ⟨c%"qualifier", .str false, c%"@qualifier"⟩]⟩

/-- mods.py:79, fields at lines 51-55 -/
def mods_DateModified : ClassDecl := ⟨c%"mods.DateModified", modsNs, [
  ⟨c%"date", .str false, c%"text()"⟩,
  ⟨c%"key_date", .bool c%"yes" none, c%"@keyDate"⟩,
  ⟨c%"encoding", .str false, c%"@encoding"⟩,
  ⟨c%"point", .str false, c%"@point"⟩,
  ⟨c%"qualifier", .str false, c%"@qualifier"⟩]⟩

/-- mods.py:82, fields at lines 51-55 -/
def mods_CopyrightDate : ClassDecl := ⟨c%"mods.CopyrightDate", modsNs, [
  ⟨c%"date", .str false, c%"text()"⟩,
  ⟨c%"key_date", .bool c%"yes" none, c%"@keyDate"⟩,
  ⟨c%"encoding", .str false, c%"@encoding"⟩,
  ⟨c%"point", .str false, c%"@point"⟩,
  ⟨c%"qualifier", .str false, c%"@qualifier"⟩]⟩

/-- mods.py:85, fields at lines 51-87 -/
def mods_DateOther : ClassDecl := ⟨c%"mods.DateOther", modsNs, [
  ⟨c%"date", .str false, c%"text()"⟩,
  ⟨c%"key_date", .bool c%"yes" none, c%"@keyDate"⟩,
  ⟨c%"encoding", .str false, c%"@encoding"⟩,
  ⟨c%"point", .str false, c%"@point"⟩,
  ⟨c%"qualifier", .str false, c%"@qualifier"⟩,
  ⟨c%"type", .str false, c%"@type"⟩]⟩

/-- mods.py:130, fields at lines 133-135 -/
def mods_Note : ClassDecl := ⟨c%"mods.Note", modsNs, [
  ⟨c%"label", .str false, c%"@displayLabel"⟩,
  ⟨c%"type", .str false, c%"@type"⟩,
  ⟨c%"text", .str false, c%"text()"⟩]⟩

/-- mods.py:137, fields at lines 133-135 -/
def mods_TypedNote : ClassDecl := ⟨c%"mods.TypedNote", modsNs, [
  ⟨c%"label", .str false, c%"@displayLabel"⟩,
  ⟨c%"type", .str false, c%"@type"⟩,
  ⟨c%"text", .str false, c%"text()"⟩]⟩

/-- mods.py:149, fields at lines 152-154 -/
def mods_Identifier : ClassDecl := ⟨c%"mods.Identifier", modsNs, [
  ⟨c%"type", .str false, c%"@type"⟩,
  ⟨c%"text", .str false, c%"text()"⟩,
  ⟨c%"label", .str false, c%"@displayLabel"⟩]⟩

/-- mods.py:156, fields at lines 159-161 -/
def mods_AccessCondition : ClassDecl := ⟨c%"mods.AccessCondition", modsNs, [
  ⟨c%"type", .str false, c%"@type"⟩,
  ⟨c%"text", .str false, c%"text()"⟩]⟩

/-- mods.py:163, fields at lines 168-170 -/
def mods_NamePart : ClassDecl := ⟨c%"mods.NamePart", modsNs, [
  ⟨c%"type", .str false, c%"@type"⟩,
  ⟨c%"text", .str false, c%"text()"⟩]⟩

/-- mods.py:197, fields at lines 199-200 -/
def mods_Genre : ClassDecl := ⟨c%"mods.Genre", modsNs, [
  ⟨c%"authority", .str false, c%"@authority"⟩,
  ⟨c%"text", .str false, c%"text()"⟩]⟩

/-- mods.py:202, fields at lines 204-206 -/
def mods_LanguageTerm : ClassDecl := ⟨c%"mods.LanguageTerm", modsNs, [
  ⟨c%"type", .str false, c%"@type"⟩,
  ⟨c%"authority", .str false, c%"@authority"⟩,
  ⟨c%"text", .str false, c%"text()"⟩]⟩

/-- mods.py:248, fields at lines 250-252 -/
def mods_Abstract : ClassDecl := ⟨c%"mods.Abstract", modsNs, [
  ⟨c%"text", .str false, c%"text()"⟩,
  ⟨c%"type", .str false, c%"@type"⟩,
  ⟨c%"label", .str false, c%"@displayLabel"⟩]⟩

/-- eadmap.py:159, fields at lines 164 -/
def eadmap_UnitTitle : ClassDecl := ⟨c%"eadmap.UnitTitle", eadmapNs, [
  ⟨c%"text", .str false, c%"text()"⟩]⟩

/-- The classes for elements with text: fields `text()` and attributes. -/
def leaves : List ClassDecl := [
  mods_Date, mods_DateCreated, mods_DateIssued, mods_DateCaptured, mods_DateValid, mods_DateModified,
  mods_CopyrightDate, mods_DateOther, mods_Note, mods_TypedNote, mods_Identifier, mods_AccessCondition,
  mods_NamePart, mods_Genre, mods_LanguageTerm, mods_Abstract, eadmap_UnitTitle]

end Bundled
