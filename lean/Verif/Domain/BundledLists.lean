import Verif.Domain.Bundled
/-
The list fields of the classes that come with eulxml (eulxml/xmlmap/{dc,premis,mods,cerp,eadmap,teimap}.py), inherited ones included, together with the
single-value fields of Verif/Domain/Bundled.lean.  Written by tools/bundled.py from the Python sources.

Left out: the following list fields, whose XPath is not one step with a name:
  dc.DublinCore.elements (`dc:*`, line 110)
  eadmap.ControlledAccessHeadings.terms (`e:corpname|e:famname|e:function|e:genreform|e:geogname|e:occupation|e:persname|e:subject|e:title`, line 103)
  eadmap.Component.c (`e:c02|e:c03|e:c04|e:c05|e:c06|e:c07|e:c08|e:c09|e:c10|e:c11|e:c12`, line 270)
  eadmap.ArchivalDescription.extent (`e:did/e:physdesc/e:extent`, line 379)
  eadmap.ProfileDescription.languages (`e:langusage/e:language`, line 454)
  eadmap.ProfileDescription.language_codes (`e:langusage/e:language/@langcode`, line 456)
  teimap.TeiEpigraph.quote (`tei:q|tei:quote|tei:cit/tei:q|tei:cit/tei:quote`, line 56)
  teimap.TeiDiv.floatingText (`tei:floatingText/tei:body/tei:div`, line 75)
  teimap.TeiFloatingText.line_group (`.//tei:lg`, line 79)
  teimap.TeiFloatingText.line (`.//tei:l`, line 80)
  teimap.TeiSection.all_figures (`.//tei:figure`, line 102)
  teimap.TeiHeader.author_list (`tei:fileDesc/tei:titleStmt/tei:author/tei:name`, line 119)
  teimap.TeiHeader.editor_list (`tei:fileDesc/tei:titleStmt/tei:editor/tei:name`, line 121)
-/
namespace Bundled
open Xml

/-- `StringListField` or `NodeListField`. -/
inductive LKind where
  | str
  | node

/-- A list field of a class. -/
structure ListDecl where
  name : Str
  kind : LKind
  xpath : Str

/-- A class with its single-value fields and its list fields. -/
structure ListClass where
  cls : ClassDecl
  lists : List ListDecl

/-- dc.py:38, list fields at lines 51-107 -/
def dc_DublinCore_l : ListClass := ⟨dc_DublinCore, [
  ⟨c%"contributor_list", .str, c%"dc:contributor"⟩,
  ⟨c%"coverage_list", .str, c%"dc:coverage"⟩,
  ⟨c%"creator_list", .str, c%"dc:creator"⟩,
  ⟨c%"date_list", .str, c%"dc:date"⟩,
  ⟨c%"description_list", .str, c%"dc:description"⟩,
  ⟨c%"format_list", .str, c%"dc:format"⟩,
  ⟨c%"identifier_list", .str, c%"dc:identifier"⟩,
  ⟨c%"language_list", .str, c%"dc:language"⟩,
  ⟨c%"publisher_list", .str, c%"dc:publisher"⟩,
  ⟨c%"relation_list", .str, c%"dc:relation"⟩,
  ⟨c%"rights_list", .str, c%"dc:rights"⟩,
  ⟨c%"source_list", .str, c%"dc:source"⟩,
  ⟨c%"subject_list", .str, c%"dc:subject"⟩,
  ⟨c%"title_list", .str, c%"dc:title"⟩,
  ⟨c%"type_list", .str, c%"dc:type"⟩]⟩

/-- premis.py:127, list fields at lines 142 -/
def premis_Premis_l : ListClass := ⟨premis_Premis, [
  ⟨c%"events", .node, c%"p:event"⟩]⟩

/-- mods.py:89, list fields at lines 92-111 -/
def mods_OriginInfo_l : ListClass := ⟨mods_OriginInfo, [
  ⟨c%"created", .node, c%"mods:dateCreated"⟩,
  ⟨c%"issued", .node, c%"mods:dateIssued"⟩,
  ⟨c%"captured", .node, c%"mods:dateCaptured"⟩,
  ⟨c%"valid", .node, c%"mods:dateValid"⟩,
  ⟨c%"modified", .node, c%"mods:dateModified"⟩,
  ⟨c%"copyright", .node, c%"mods:copyrightDate"⟩,
  ⟨c%"other", .node, c%"mods:dateOther"⟩]⟩

/-- mods.py:179, list fields at lines 186-189 -/
def mods_Name_l : ListClass := ⟨mods_Name, [
  ⟨c%"name_parts", .node, c%"mods:namePart"⟩,
  ⟨c%"roles", .node, c%"mods:role"⟩]⟩

/-- mods.py:208, list fields at lines 210 -/
def mods_Language_l : ListClass := ⟨⟨c%"mods.Language", modsNs, []⟩, [
  ⟨c%"terms", .node, c%"mods:languageTerm"⟩]⟩

/-- mods.py:288, list fields at lines 291 -/
def mods_Part_l : ListClass := ⟨mods_Part, [
  ⟨c%"details", .node, c%"mods:detail"⟩]⟩

/-- mods.py:302, list fields at lines 310-328 -/
def mods_BaseMods_l : ListClass := ⟨mods_BaseMods, [
  ⟨c%"title_info_list", .node, c%"mods:titleInfo"⟩,
  ⟨c%"names", .node, c%"mods:name"⟩,
  ⟨c%"notes", .node, c%"mods:note"⟩,
  ⟨c%"identifiers", .node, c%"mods:identifier"⟩,
  ⟨c%"access_conditions", .node, c%"mods:accessCondition"⟩,
  ⟨c%"genres", .node, c%"mods:genre"⟩,
  ⟨c%"languages", .node, c%"mods:language"⟩,
  ⟨c%"locations", .node, c%"mods:location"⟩,
  ⟨c%"subjects", .node, c%"mods:subject"⟩,
  ⟨c%"parts", .node, c%"mods:part"⟩]⟩

/-- mods.py:330, list fields at lines 310-328 -/
def mods_RelatedItem_l : ListClass := ⟨mods_RelatedItem, [
  ⟨c%"title_info_list", .node, c%"mods:titleInfo"⟩,
  ⟨c%"names", .node, c%"mods:name"⟩,
  ⟨c%"notes", .node, c%"mods:note"⟩,
  ⟨c%"identifiers", .node, c%"mods:identifier"⟩,
  ⟨c%"access_conditions", .node, c%"mods:accessCondition"⟩,
  ⟨c%"genres", .node, c%"mods:genre"⟩,
  ⟨c%"languages", .node, c%"mods:language"⟩,
  ⟨c%"locations", .node, c%"mods:location"⟩,
  ⟨c%"subjects", .node, c%"mods:subject"⟩,
  ⟨c%"parts", .node, c%"mods:part"⟩]⟩

/-- mods.py:337, list fields at lines 310-343 -/
def mods_MODS_l : ListClass := ⟨mods_MODS, [
  ⟨c%"title_info_list", .node, c%"mods:titleInfo"⟩,
  ⟨c%"names", .node, c%"mods:name"⟩,
  ⟨c%"notes", .node, c%"mods:note"⟩,
  ⟨c%"identifiers", .node, c%"mods:identifier"⟩,
  ⟨c%"access_conditions", .node, c%"mods:accessCondition"⟩,
  ⟨c%"genres", .node, c%"mods:genre"⟩,
  ⟨c%"languages", .node, c%"mods:language"⟩,
  ⟨c%"locations", .node, c%"mods:location"⟩,
  ⟨c%"subjects", .node, c%"mods:subject"⟩,
  ⟨c%"parts", .node, c%"mods:part"⟩,
  ⟨c%"related_items", .node, c%"mods:relatedItem"⟩]⟩

/-- mods.py:346, list fields at lines 310-343 -/
def mods_MODSv34_l : ListClass := ⟨mods_MODSv34, [
  ⟨c%"title_info_list", .node, c%"mods:titleInfo"⟩,
  ⟨c%"names", .node, c%"mods:name"⟩,
  ⟨c%"notes", .node, c%"mods:note"⟩,
  ⟨c%"identifiers", .node, c%"mods:identifier"⟩,
  ⟨c%"access_conditions", .node, c%"mods:accessCondition"⟩,
  ⟨c%"genres", .node, c%"mods:genre"⟩,
  ⟨c%"languages", .node, c%"mods:language"⟩,
  ⟨c%"locations", .node, c%"mods:location"⟩,
  ⟨c%"subjects", .node, c%"mods:subject"⟩,
  ⟨c%"parts", .node, c%"mods:part"⟩,
  ⟨c%"related_items", .node, c%"mods:relatedItem"⟩]⟩

/-- cerp.py:56, list fields at lines 60 -/
def cerp_Header_l : ListClass := ⟨cerp_Header, [
  ⟨c%"comments", .str, c%"xm:Comments"⟩]⟩

/-- cerp.py:69, list fields at lines 71-87 -/
def cerp_BaseBody_l : ListClass := ⟨⟨c%"cerp._BaseBody", cerpNs, []⟩, [
  ⟨c%"content_type_list", .str, c%"xm:ContentType"⟩,
  ⟨c%"charset_list", .str, c%"xm:Charset"⟩,
  ⟨c%"content_name_list", .str, c%"xm:ContentName"⟩,
  ⟨c%"content_type_comments_list", .str, c%"xm:ContentTypeComments"⟩,
  ⟨c%"content_type_param_list", .node, c%"xm:ContentTypeParam"⟩,
  ⟨c%"transfer_encoding_list", .str, c%"xm:TransferEncoding"⟩,
  ⟨c%"transfer_encoding_comments_list", .str, c%"xm:TransferEncodingComments"⟩,
  ⟨c%"content_id_list", .str, c%"xm:ContentId"⟩,
  ⟨c%"content_id_comments_list", .str, c%"xm:ContentIdComments"⟩,
  ⟨c%"description_list", .str, c%"xm:Description"⟩,
  ⟨c%"description_comments_list", .str, c%"xm:DescriptionComments"⟩,
  ⟨c%"disposition_list", .str, c%"xm:Disposition"⟩,
  ⟨c%"disposition_file_name_list", .str, c%"xm:DispositionFileName"⟩,
  ⟨c%"disposition_comments_list", .str, c%"xm:DispositionComments"⟩,
  ⟨c%"disposition_params", .node, c%"xm:DispositionParams"⟩,
  ⟨c%"other_mime_headers", .node, c%"xm:OtherMimeHeader"⟩]⟩

/-- cerp.py:115, list fields at lines 117-118 -/
def cerp_BaseContent_l : ListClass := ⟨⟨c%"cerp._BaseContent", cerpNs, []⟩, [
  ⟨c%"charset_list", .str, c%"xm:CharSet"⟩,
  ⟨c%"transfer_encoding_list", .str, c%"xm:TransferEncoding"⟩]⟩

/-- cerp.py:125, list fields at lines 117-118 -/
def cerp_BodyContent_l : ListClass := ⟨cerp_BodyContent, [
  ⟨c%"charset_list", .str, c%"xm:CharSet"⟩,
  ⟨c%"transfer_encoding_list", .str, c%"xm:TransferEncoding"⟩]⟩

/-- cerp.py:130, list fields at lines 117-118 -/
def cerp_ExtBodyContent_l : ListClass := ⟨cerp_ExtBodyContent, [
  ⟨c%"charset_list", .str, c%"xm:CharSet"⟩,
  ⟨c%"transfer_encoding_list", .str, c%"xm:TransferEncoding"⟩]⟩

/-- cerp.py:137, list fields at lines 71-87 -/
def cerp_SingleBody_l : ListClass := ⟨cerp_SingleBody, [
  ⟨c%"content_type_list", .str, c%"xm:ContentType"⟩,
  ⟨c%"charset_list", .str, c%"xm:Charset"⟩,
  ⟨c%"content_name_list", .str, c%"xm:ContentName"⟩,
  ⟨c%"content_type_comments_list", .str, c%"xm:ContentTypeComments"⟩,
  ⟨c%"content_type_param_list", .node, c%"xm:ContentTypeParam"⟩,
  ⟨c%"transfer_encoding_list", .str, c%"xm:TransferEncoding"⟩,
  ⟨c%"transfer_encoding_comments_list", .str, c%"xm:TransferEncodingComments"⟩,
  ⟨c%"content_id_list", .str, c%"xm:ContentId"⟩,
  ⟨c%"content_id_comments_list", .str, c%"xm:ContentIdComments"⟩,
  ⟨c%"description_list", .str, c%"xm:Description"⟩,
  ⟨c%"description_comments_list", .str, c%"xm:DescriptionComments"⟩,
  ⟨c%"disposition_list", .str, c%"xm:Disposition"⟩,
  ⟨c%"disposition_file_name_list", .str, c%"xm:DispositionFileName"⟩,
  ⟨c%"disposition_comments_list", .str, c%"xm:DispositionComments"⟩,
  ⟨c%"disposition_params", .node, c%"xm:DispositionParams"⟩,
  ⟨c%"other_mime_headers", .node, c%"xm:OtherMimeHeader"⟩]⟩

/-- cerp.py:173, list fields at lines 180-194 -/
def cerp_BaseMessage_l : ListClass := ⟨cerp_BaseMessage, [
  ⟨c%"orig_date_list", .str, c%"xm:OrigDate"⟩,
  ⟨c%"from_list", .str, c%"xm:From"⟩,
  ⟨c%"sender_list", .str, c%"xm:Sender"⟩,
  ⟨c%"to_list", .str, c%"xm:To"⟩,
  ⟨c%"cc_list", .str, c%"xm:Cc"⟩,
  ⟨c%"bcc_list", .str, c%"xm:Bcc"⟩,
  ⟨c%"in_reply_to_list", .str, c%"xm:InReplyTo"⟩,
  ⟨c%"references_list", .str, c%"xm:References"⟩,
  ⟨c%"subject_list", .str, c%"xm:Subject"⟩,
  ⟨c%"comments_list", .str, c%"xm:Comments"⟩,
  ⟨c%"keywords_list", .str, c%"xm:Keywords"⟩,
  ⟨c%"headers", .node, c%"xm:Header"⟩]⟩

/-- cerp.py:209, list fields at lines 180-215 -/
def cerp_Message_l : ListClass := ⟨cerp_Message, [
  ⟨c%"orig_date_list", .str, c%"xm:OrigDate"⟩,
  ⟨c%"from_list", .str, c%"xm:From"⟩,
  ⟨c%"sender_list", .str, c%"xm:Sender"⟩,
  ⟨c%"to_list", .str, c%"xm:To"⟩,
  ⟨c%"cc_list", .str, c%"xm:Cc"⟩,
  ⟨c%"bcc_list", .str, c%"xm:Bcc"⟩,
  ⟨c%"in_reply_to_list", .str, c%"xm:InReplyTo"⟩,
  ⟨c%"references_list", .str, c%"xm:References"⟩,
  ⟨c%"subject_list", .str, c%"xm:Subject"⟩,
  ⟨c%"comments_list", .str, c%"xm:Comments"⟩,
  ⟨c%"keywords_list", .str, c%"xm:Keywords"⟩,
  ⟨c%"headers", .node, c%"xm:Header"⟩,
  ⟨c%"status_flags", .str, c%"xm:StatusFlag"⟩]⟩

/-- cerp.py:317, list fields at lines 180-194 -/
def cerp_ChildMessage_l : ListClass := ⟨cerp_ChildMessage, [
  ⟨c%"orig_date_list", .str, c%"xm:OrigDate"⟩,
  ⟨c%"from_list", .str, c%"xm:From"⟩,
  ⟨c%"sender_list", .str, c%"xm:Sender"⟩,
  ⟨c%"to_list", .str, c%"xm:To"⟩,
  ⟨c%"cc_list", .str, c%"xm:Cc"⟩,
  ⟨c%"bcc_list", .str, c%"xm:Bcc"⟩,
  ⟨c%"in_reply_to_list", .str, c%"xm:InReplyTo"⟩,
  ⟨c%"references_list", .str, c%"xm:References"⟩,
  ⟨c%"subject_list", .str, c%"xm:Subject"⟩,
  ⟨c%"comments_list", .str, c%"xm:Comments"⟩,
  ⟨c%"keywords_list", .str, c%"xm:Keywords"⟩,
  ⟨c%"headers", .node, c%"xm:Header"⟩]⟩

/-- cerp.py:334, list fields at lines 341-343 -/
def cerp_Folder_l : ListClass := ⟨cerp_Folder, [
  ⟨c%"messages", .node, c%"xm:Message"⟩,
  ⟨c%"subfolders", .node, c%"xm:Folder"⟩,
  ⟨c%"mboxes", .node, c%"xm:Mbox"⟩]⟩

/-- cerp.py:360, list fields at lines 369-371 -/
def cerp_Account_l : ListClass := ⟨cerp_Account, [
  ⟨c%"references_accounts", .node, c%"xm:ReferencesAccount"⟩,
  ⟨c%"folders", .node, c%"xm:Folder"⟩]⟩

/-- eadmap.py:48, list fields at lines 51 -/
def eadmap_Note_l : ListClass := ⟨⟨c%"eadmap.Note", eadmapNs, []⟩, [
  ⟨c%"content", .node, c%"e:p"⟩]⟩

/-- eadmap.py:55, list fields at lines 59 -/
def eadmap_Section_l : ListClass := ⟨⟨c%"eadmap.Section", eadmapNs, []⟩, [
  ⟨c%"content", .node, c%"e:p"⟩]⟩

/-- eadmap.py:77, list fields at lines 59-106 -/
def eadmap_ControlledAccessHeadings_l : ListClass := ⟨⟨c%"eadmap.ControlledAccessHeadings", eadmapNs, []⟩, [
  ⟨c%"content", .node, c%"e:p"⟩,
  ⟨c%"person_name", .node, c%"e:persname"⟩,
  ⟨c%"family_name", .node, c%"e:famname"⟩,
  ⟨c%"corporate_name", .node, c%"e:corpname"⟩,
  ⟨c%"subject", .node, c%"e:subject"⟩,
  ⟨c%"geographic_name", .node, c%"e:geogname"⟩,
  ⟨c%"genre_form", .node, c%"e:genreform"⟩,
  ⟨c%"occupation", .node, c%"e:occupation"⟩,
  ⟨c%"function", .node, c%"e:function"⟩,
  ⟨c%"title", .node, c%"e:title"⟩,
  ⟨c%"controlaccess", .node, c%"e:controlaccess"⟩]⟩

/-- eadmap.py:201, list fields at lines 220-222 -/
def eadmap_DescriptiveIdentification_l : ListClass := ⟨eadmap_DescriptiveIdentification, [
  ⟨c%"container", .node, c%"e:container"⟩,
  ⟨c%"dao_list", .node, c%"e:dao"⟩]⟩

/-- eadmap.py:226, list fields at lines 267 -/
def eadmap_Component_l : ListClass := ⟨eadmap_Component, [
  ⟨c%"dao_list", .node, c%"e:dao"⟩]⟩

/-- eadmap.py:289, list fields at lines 59-298 -/
def eadmap_SubordinateComponents_l : ListClass := ⟨eadmap_SubordinateComponents, [
  ⟨c%"content", .node, c%"e:p"⟩,
  ⟨c%"c", .node, c%"e:c01"⟩]⟩

/-- eadmap.py:334, list fields at lines 340 -/
def eadmap_PointerGroup_l : ListClass := ⟨⟨c%"eadmap.PointerGroup", eadmapNs, []⟩, [
  ⟨c%"ref", .node, c%"e:ref"⟩]⟩

/-- eadmap.py:354, list fields at lines 59-360 -/
def eadmap_Index_l : ListClass := ⟨eadmap_Index, [
  ⟨c%"content", .node, c%"e:p"⟩,
  ⟨c%"entry", .node, c%"e:indexentry"⟩]⟩

/-- eadmap.py:367, list fields at lines 417-419 -/
def eadmap_ArchivalDescription_l : ListClass := ⟨eadmap_ArchivalDescription, [
  ⟨c%"index", .node, c%"e:index"⟩,
  ⟨c%"dao_list", .node, c%"e:dao"⟩]⟩

/-- eadmap.py:423, list fields at lines 429 -/
def eadmap_Address_l : ListClass := ⟨⟨c%"eadmap.Address", eadmapNs, []⟩, [
  ⟨c%"lines", .str, c%"e:addressline"⟩]⟩

/-- teimap.py:45, list fields at lines 47-48 -/
def teimap_TeiLineGroup_l : ListClass := ⟨teimap_TeiLineGroup, [
  ⟨c%"linegroup", .node, c%"tei:lg"⟩,
  ⟨c%"line", .node, c%"tei:l"⟩]⟩

/-- teimap.py:51, list fields at lines 52-53 -/
def teimap_TeiQuote_l : ListClass := ⟨⟨c%"teimap.TeiQuote", teimapNs, []⟩, [
  ⟨c%"line", .node, c%"tei:l"⟩,
  ⟨c%"linegroup", .node, c%"tei:lg"⟩]⟩

/-- teimap.py:60, list fields at lines 66-74 -/
def teimap_TeiDiv_l : ListClass := ⟨teimap_TeiDiv, [
  ⟨c%"title_list", .str, c%"tei:head"⟩,
  ⟨c%"linegroup", .node, c%"tei:lg"⟩,
  ⟨c%"div", .node, c%"tei:div"⟩,
  ⟨c%"epigraph", .node, c%"tei:epigraph"⟩,
  ⟨c%"p", .str, c%"tei:p"⟩,
  ⟨c%"q", .str, c%"tei:q"⟩,
  ⟨c%"quote", .str, c%"tei:quote"⟩]⟩

/-- teimap.py:84, list fields at lines 91 -/
def teimap_TeiFigure_l : ListClass := ⟨teimap_TeiFigure, [
  ⟨c%"floatingText", .node, c%"tei:floatingText"⟩]⟩

/-- teimap.py:99, list fields at lines 101 -/
def teimap_TeiSection_l : ListClass := ⟨⟨c%"teimap.TeiSection", teimapNs, []⟩, [
  ⟨c%"div", .node, c%"tei:div"⟩]⟩

/-- teimap.py:104, list fields at lines 107 -/
def teimap_TeiInterpGroup_l : ListClass := ⟨teimap_TeiInterpGroup, [
  ⟨c%"interp", .node, c%"tei:interp"⟩]⟩

/-- The classes with list fields. -/
def listClasses : List ListClass := [
  dc_DublinCore_l, premis_Premis_l, mods_OriginInfo_l, mods_Name_l, mods_Language_l, mods_Part_l,
  mods_BaseMods_l, mods_RelatedItem_l, mods_MODS_l, mods_MODSv34_l, cerp_Header_l, cerp_BaseBody_l,
  cerp_BaseContent_l, cerp_BodyContent_l, cerp_ExtBodyContent_l, cerp_SingleBody_l, cerp_BaseMessage_l, cerp_Message_l,
  cerp_ChildMessage_l, cerp_Folder_l, cerp_Account_l, eadmap_Note_l, eadmap_Section_l, eadmap_ControlledAccessHeadings_l,
  eadmap_DescriptiveIdentification_l, eadmap_Component_l, eadmap_SubordinateComponents_l, eadmap_PointerGroup_l, eadmap_Index_l, eadmap_ArchivalDescription_l,
  eadmap_Address_l, teimap_TeiLineGroup_l, teimap_TeiQuote_l, teimap_TeiDiv_l, teimap_TeiFigure_l, teimap_TeiSection_l,
  teimap_TeiInterpGroup_l]

end Bundled
