import Verif.Basic

/-!
# Media types of files

The customary media type for each extension, grouped by type as in the file
`mime.types` of a web server. Every other file is `application/octet-stream`.
-/

namespace Blogc.Mime

open Blogc

def types : List (Str × List Str) := [
  (b!"application/atom+xml", [b!"atom"]),
  (b!"application/font-woff", [b!"woff"]),
  (b!"application/java-archive", [b!"jar", b!"war", b!"ear"]),
  (b!"application/javascript", [b!"js"]),
  (b!"application/json", [b!"json"]),
  (b!"application/mac-binhex40", [b!"hqx"]),
  (b!"application/msword", [b!"doc"]),
  (b!"application/pdf", [b!"pdf"]),
  (b!"application/postscript", [b!"ps", b!"eps", b!"ai"]),
  (b!"application/rss+xml", [b!"rss"]),
  (b!"application/rtf", [b!"rtf"]),
  (b!"application/vnd.apple.mpegurl", [b!"m3u8"]),
  (b!"application/vnd.google-earth.kml+xml", [b!"kml"]),
  (b!"application/vnd.google-earth.kmz", [b!"kmz"]),
  (b!"application/vnd.ms-excel", [b!"xls"]),
  (b!"application/vnd.ms-fontobject", [b!"eot"]),
  (b!"application/vnd.ms-powerpoint", [b!"ppt"]),
  (b!"application/vnd.openxmlformats-officedocument.presentationml.presentation", [b!"pptx"]),
  (b!"application/vnd.openxmlformats-officedocument.spreadsheetml.sheet", [b!"xlsx"]),
  (b!"application/vnd.openxmlformats-officedocument.wordprocessingml.document", [b!"docx"]),
  (b!"application/vnd.wap.wmlc", [b!"wmlc"]),
  (b!"application/x-7z-compressed", [b!"7z"]),
  (b!"application/x-cocoa", [b!"cco"]),
  (b!"application/x-java-archive-diff", [b!"jardiff"]),
  (b!"application/x-java-jnlp-file", [b!"jnlp"]),
  (b!"application/x-makeself", [b!"run"]),
  (b!"application/x-perl", [b!"pl", b!"pm"]),
  (b!"application/x-pilot", [b!"prc", b!"pdb"]),
  (b!"application/x-rar-compressed", [b!"rar"]),
  (b!"application/x-redhat-package-manager", [b!"rpm"]),
  (b!"application/x-sea", [b!"sea"]),
  (b!"application/x-shockwave-flash", [b!"swf"]),
  (b!"application/x-stuffit", [b!"sit"]),
  (b!"application/x-tcl", [b!"tcl", b!"tk"]),
  (b!"application/x-x509-ca-cert", [b!"der", b!"pem", b!"crt"]),
  (b!"application/x-xpinstall", [b!"xpi"]),
  (b!"application/xhtml+xml", [b!"xhtml"]),
  (b!"application/xspf+xml", [b!"xspf"]),
  (b!"application/zip", [b!"zip"]),
  (b!"audio/midi", [b!"mid", b!"midi", b!"kar"]),
  (b!"audio/mpeg", [b!"mp3"]),
  (b!"audio/ogg", [b!"ogg"]),
  (b!"audio/x-m4a", [b!"m4a"]),
  (b!"audio/x-realaudio", [b!"ra"]),
  (b!"image/gif", [b!"gif"]),
  (b!"image/jpeg", [b!"jpeg", b!"jpg"]),
  (b!"image/png", [b!"png"]),
  (b!"image/svg+xml", [b!"svg", b!"svgz"]),
  (b!"image/tiff", [b!"tif", b!"tiff"]),
  (b!"image/vnd.wap.wbmp", [b!"wbmp"]),
  (b!"image/webp", [b!"webp"]),
  (b!"image/x-icon", [b!"ico"]),
  (b!"image/x-jng", [b!"jng"]),
  (b!"image/x-ms-bmp", [b!"bmp"]),
  (b!"text/css", [b!"css"]),
  (b!"text/html", [b!"html", b!"htm", b!"shtml"]),
  (b!"text/mathml", [b!"mml"]),
  (b!"text/plain", [b!"txt"]),
  (b!"text/vnd.sun.j2me.app-descriptor", [b!"jad"]),
  (b!"text/vnd.wap.wml", [b!"wml"]),
  (b!"text/x-component", [b!"htc"]),
  (b!"text/xml", [b!"xml"]),
  (b!"video/3gpp", [b!"3gpp", b!"3gp"]),
  (b!"video/mp2t", [b!"ts"]),
  (b!"video/mp4", [b!"mp4"]),
  (b!"video/mpeg", [b!"mpeg", b!"mpg"]),
  (b!"video/quicktime", [b!"mov"]),
  (b!"video/webm", [b!"webm"]),
  (b!"video/x-flv", [b!"flv"]),
  (b!"video/x-m4v", [b!"m4v"]),
  (b!"video/x-mng", [b!"mng"]),
  (b!"video/x-ms-asf", [b!"asx", b!"asf"]),
  (b!"video/x-ms-wmv", [b!"wmv"]),
  (b!"video/x-msvideo", [b!"avi"])]

/-- The media type of an extension. -/
def typeOf (ext : Str) : Str :=
  match types.find? (fun t => t.2.contains ext) with
  | some t => t.1
  | none => b!"application/octet-stream"

end Blogc.Mime
