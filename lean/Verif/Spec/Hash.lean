import Verif.Spec.Attach

/-!
# What an attachment claims about its content
-/

namespace Verif.Spec

open Verif

/-- Two attachments with the same content and the same labels, whose claims about the content may
differ: the hash that is "used as an integrity check for the attachment", the signature and the size
(`src/messages/attachment.rs:23-24,31-34,69-76`). -/
structure SameContent (a b : Attachment) : Prop where
  id : b.id = a.id
  description : b.description = a.description
  filename : b.filename = a.filename
  mediaType : b.mediaType = a.mediaType
  format : b.format = a.format
  lastmod : b.lastmodTime = a.lastmodTime
  links : b.data.links = a.data.links
  base64 : b.data.base64 = a.data.base64
  json : b.data.json = a.data.json

end Verif.Spec
