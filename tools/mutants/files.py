"""Mutants of the model of listing files and of the names of modules."""
MUTANTS = []


def m(name, definition, edit, claim, expect, *edits):
    MUTANTS.append(dict(name=name, definition=definition, edit=edit, claim=claim,
                        expect=expect.split(), edits=list(edits)))


F, S = 'FileSystem', 'Sources'
m('fs_links', 'walkEntries', 'links are followed', 'C106: links are not entered', 'C106_files_refuted',
  (F, '  | .directory linked _ _ => !linked', '  | .directory _ _ _ => true'))
m('fs_only_links', 'walkEntries', 'only links are followed', 'C106: files of subdirectories are found', 'C106_files_partial C106_library_partial C106_stubs_partial',
  (F, '  | .directory linked _ _ => !linked', '  | .directory linked _ _ => linked'))
m('fs_flat', 'walkTree', 'subdirectories are left out', 'C106: files of subdirectories are found', 'C106_files_partial C106_library_partial C106_stubs_partial',
  (F, '.map Prod.fst) :: walkEntries root entries', '.map Prod.fst) :: []'))
m('fs_directories', 'walkTree', 'names of directories are listed as files', 'C106: nothing else is found', 'C106_files_partial C106_once C106_only',
  (F, 'entries.filter fun e => !e.2.isDirectory', 'entries.filter fun _ => true'))
m('fs_root', 'walkEntries', 'the directories above are forgotten', 'C106: paths of files', 'C106_files_partial C106_once C106_only',
  (F, 'walkTree (root ++ [name]) e', 'walkTree [name] e'))
m('fs_root_order', 'walkEntries', 'the parts of paths are reversed', 'C106: paths of files', 'C106_files_partial C106_once C106_only',
  (F, 'walkTree (root ++ [name]) e', 'walkTree (name :: root) e'))
m('fs_last', 'walkEntries', 'only the first subdirectory is entered', 'C106: files of subdirectories are found', 'C106_files_partial C106_library_partial',
  (F, 'then walkTree (root ++ [name]) e ++ walkEntries root entries', 'then walkTree (root ++ [name]) e'))
m('fs_twice', 'walkTree', 'every directory is listed twice', 'C106: each file is found once', 'C106_once',
  (F, '(walkTree [] directory).flatMap', '(walkTree [] directory ++ walkTree [] directory).flatMap'))
m('fs_unreadable', 'walkTree', 'directories are left out if they can be listed', 'C106', 'C106_files_partial C106_library_partial',
  (F, '    if readable then', '    if !readable then'))
m('fs_extension', 'isSourceFile', 'extension modules are left out', 'C106: every module of the library', 'C106_library_partial',
  (S, 'def isSourceFile (f : File) : Bool := sourceSuffixes.contains (suffixes f.name).flatten',
   'def isSourceFile (f : File) : Bool := (suffixes f.name).flatten == ".py".toList'))
m('fs_pyc', 'isSourceFile', 'compiled files are sources', 'C106: nothing else', 'C106_only',
  (S, 'def isSourceFile (f : File) : Bool := sourceSuffixes.contains (suffixes f.name).flatten',
   'def isSourceFile (f : File) : Bool := moduleSuffixes.contains (suffixes f.name).flatten'))
m('fs_last_suffix', 'isSourceFile', 'only the last suffix is looked at', 'C106', 'C106_library_partial',
  (S, 'def isSourceFile (f : File) : Bool := sourceSuffixes.contains (suffixes f.name).flatten',
   'def isSourceFile (f : File) : Bool := sourceSuffixes.contains (splitSuffix f.name).2'))
m('fs_stub_ending', 'isStubFile', 'files such as a.b.pyi are stubs', 'C59/C106: names of stubs', 'C59_stub',
  (S, 'def isStubFile (f : File) : Bool := suffixes f.name == [".pyi".toList]',
   'def isStubFile (f : File) : Bool := (splitSuffix f.name).2 == ".pyi".toList'))
m('fs_first_directory', 'stdlibModules', 'only the first library directory is read', 'C106', 'C106_library_partial',
  (S, '++ directories.flatMap fun files =>', '++ (directories.take 1).flatMap fun files =>'))
